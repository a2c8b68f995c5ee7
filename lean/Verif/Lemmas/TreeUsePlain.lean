import Verif.Spec.TreeUsePlain
import Verif.Lemmas.TreeUseExt
import Verif.Lemmas.LendPlain
/-
Each step of a program with references ends as over plain memory, with borrow trees.
-/
namespace Simd.Tree.Use
open Spec
open Lend (returned move_owner move_congr result_old)
open Client (Seen view viewHeap result create)

variable {M : Machine} {P : Plat} {w w' : World}

/-! ### Names and pointers -/

theorem plain_ref {r : Nat} {ρ : Lend.Ref} (h : w.refs r = some ρ) : w.plain.refs r = some { ρ with tag := w.st.home ρ.tag } := by
  show (w.refs r).map _ = _; rw [h]; rfl
theorem plain_noref {r : Nat} (h : w.refs r = none) : w.plain.refs r = none := by
  show (w.refs r).map _ = _; rw [h]; rfl
theorem plain_var {x : Nat} {o : Owned} (h : w.vars x = some o) : w.plain.vars x = some (Moves.move w.st.home o) := by
  show (w.vars x).map _ = _; rw [h]; rfl

theorem alloc_eq (hI : Inv P w) {p : Ptr} {n : Nat} (h : w.Within p n) : w.plain.alloc p.buf = w.st.home (w.name p.buf) := by
  unfold Lend.Plain.alloc
  rcases h with ⟨o, h, -⟩ | ⟨ρ, h, -⟩
  · rw [plain_noref (hI.var_name h).2.2, plain_var h, (hI.var_name h).1]
    exact move_owner _ o
  · rw [plain_ref h, (ref_name h).1]

theorem at_eq (hI : Inv P w) {p : Ptr} {n : Nat} (h : w.Within p n) : w.plain.at' p = place w.st ⟨w.name p.buf, p.off⟩ := by
  unfold Lend.Plain.at' place; rw [alloc_eq hI h]

theorem plain_ownerOf (n : Nat) : w.plain.ownerOf n = w.ownerOf n := by
  unfold Lend.Plain.ownerOf World.ownerOf
  cases h : w.refs n with
  | none => rw [plain_noref h]
  | some ρ => rw [plain_ref h]

/-! ### The world after a step -/

/-- The tags that were in use are those of the same allocations. -/
def Homes (w : World) (s' : State) : Prop := ∀ t, t < w.st.next → s'.home t = w.st.home t

theorem plain_vars (hI : Inv P w) {s' : State} (hh : Homes w s') (x : Nat) : (w.vars x).map (Moves.move s'.home) = w.plain.vars x := by
  show _ = (w.vars x).map _
  cases h : w.vars x with
  | none => rfl
  | some o => exact congrArg some (move_congr (hh _ (hI.tag h)))

theorem plain_refs (hI : Inv P w) {s' : State} (hh : Homes w s') (r : Nat) : (w.refs r).map (fun ρ => { ρ with tag := s'.home ρ.tag }) = w.plain.refs r := by
  show _ = (w.refs r).map _
  cases h : w.refs r with
  | none => rfl
  | some ρ =>
    obtain ⟨o, -, h2⟩ := hI.refs r ρ h
    exact congrArg some (by dsimp only; rw [hh _ h2.tag])

theorem plain_stay (hI : Inv P w) {s' : State} (hh : Homes w s') : World.plain ⟨w.vars, s', w.refs⟩ = ⟨s'.mem, w.plain.vars, w.plain.refs⟩ := by
  have h1 := funext (plain_vars hI hh)
  have h2 := funext (plain_refs hI hh)
  show Lend.Plain.mk _ _ _ = _
  rw [← h1, ← h2]

theorem plain_set (hI : Inv P w) {s' : State} (hh : Homes w s') (x : Nat) (no : Option Owned) :
    World.plain ⟨w.set x no, s', w.refs⟩ = ⟨s'.mem, w.plain.set x (no.map (Moves.move s'.home)), w.plain.refs⟩ := by
  have h2 := funext (plain_refs hI hh)
  show Lend.Plain.mk _ _ _ = _
  rw [← h2]
  congr 1
  funext y
  unfold World.set Lend.Plain.set
  dsimp only
  split
  · rfl
  · exact plain_vars hI hh y

theorem plain_setRef (hI : Inv P w) {s' : State} (hh : Homes w s') (k : Nat) (ρ : Option Lend.Ref) :
    World.plain ⟨w.vars, s', w.setRef k ρ⟩ = ⟨s'.mem, w.plain.vars, w.plain.setRef k (ρ.map fun ρ => { ρ with tag := s'.home ρ.tag })⟩ := by
  have h1 := funext (plain_vars hI hh)
  show Lend.Plain.mk _ _ _ = _
  rw [← h1]
  congr 1
  funext y
  unfold World.setRef Lend.Plain.setRef
  dsimp only
  split
  · rfl
  · exact plain_refs hI hh y

theorem homes_refl (w : World) : Homes w w.st := fun _ _ => rfl
theorem homes_after {s' : State} {G : Nat → Nat → Loan} (h : AfterCall w.st s' G) : Homes w s' := h.home

/-- A step that changes memory only. -/
theorem plain_after (hI : Inv P w) {α β : Type} {r : Result α} {o : Out β} {Q : α → β → State → Prop} {E : State → Prop} (h : Sim r o Q E) (hQ : ∀ a b s, Q a b s → Homes w s) (hE : ∀ s, E s → Homes w s) :
    (w.after r fun _ => w.vars).plain = w.plain.after o fun _ => w.plain.vars := by
  cases r <;> cases o <;> first
    | exact h.elim
    | rfl
    | (obtain ⟨rfl, h⟩ := h; exact congrArg Lend.Plain.End.ok (plain_stay hI (hQ _ _ _ h)))
    | (obtain ⟨rfl, h⟩ := h; exact congrArg Lend.Plain.End.ok (plain_stay hI (hE _ h)))

/-- A new reference. -/
theorem plain_make (hI : Inv P w) {s' : State} (hh : Homes w s') (hn : w.st.next ≤ s'.next) {k : Nat} {excl init : Bool} {x : Nat} {p : Ptr} {n : Nat}
    (hu : World.make { w with st := s' } k excl init x p n ≠ .ub) :
    (World.make { w with st := s' } k excl init x p n).plain = .ok ⟨s'.mem, w.plain.vars, w.plain.setRef k (some ⟨s'.home p.buf, p.off, n, excl, init, x⟩)⟩ := by
  cases e : World.make { w with st := s' } k excl init x p n with
  | ub => exact (hu e).elim
  | panic => exact (make_panic e).elim
  | ok w' =>
    obtain ⟨s2, rfl, h1, h2⟩ := make_eq e
    have hh' : Homes w s2 := fun t ht => by
      rw [h2]
      dsimp only
      rw [if_neg (by omega)]
      exact hh t ht
    refine congrArg Lend.Plain.End.ok ((plain_setRef hI hh' k (some ⟨s'.next, p.off, n, excl, init, x⟩)).trans ?_)
    have h3 : s2.home s'.next = s'.home p.buf := by rw [h2]; exact if_pos rfl
    dsimp only [Option.map]
    rw [h3, h1]

/-! ### Calls -/

theorem plain_args (hI : Inv P w) {α : Type} {c : Call α} (h1 : w.Within c.shared.1 c.shared.2) (h2 : w.Within c.exclusive.1 c.exclusive.2) : w.plain.args c = untag w.st (w.args c) := by
  have e1 := alloc_eq hI h1
  have e2 := alloc_eq hI h2
  unfold Lend.Plain.args
  cases c <;> dsimp only [Call.shared, Call.exclusive] at e1 e2 <;> dsimp only [World.args, untag, place, Spec.untag, Spec.place] <;> simp only [e1, e2]

/-- What is seen of a result does not depend on the tags, and the slice that is returned is the same. -/
def Alike (s' : State) {α : Type} (c : Call α) (a a' : α) : Prop := view c a = view c a' ∧ returned c a' = (returned c a).map fun q => (place s' q.1, q.2)

theorem alike {s s' : State} {α : Type} {c : Call α} {a a' : α} (h : SameResult s s' (w.args c) a a') : Alike s' c a a' := by
  cases c <;> first | (obtain rfl := h; exact ⟨rfl, rfl⟩) | (obtain ⟨rfl, -, -⟩ := h; exact ⟨rfl, rfl⟩)

/-- The end of a call. -/
theorem plain_kept (hI : Inv P w) {α : Type} {c : Call α} {keep : Option Nat} {r : Result α} {o : Out α}
    (h : Sim r o (fun a a' s' => Homes w s' ∧ w.st.next ≤ s'.next ∧ Alike s' c a a') fun s' => Homes w s') (hu : w.kept c keep r ≠ .ub) :
    saw c r = Lend.Plain.saw c o ∧ (w.kept c keep r).plain = w.plain.kept c keep o := by
  cases r with
  | ub => cases o <;> exact h.elim
  | panic => cases o <;> first | exact h.elim | (cases keep <;> exact ⟨rfl, rfl⟩)
  | err s' =>
    cases o <;> first | exact h.elim | skip
    obtain ⟨rfl, h⟩ := h
    refine ⟨rfl, ?_⟩
    cases keep <;> exact congrArg Lend.Plain.End.ok (plain_stay hI h)
  | ok a s' =>
    cases o <;> first | exact h.elim | skip
    rename_i a' m
    obtain ⟨rfl, h1, h2, h3⟩ := h
    obtain ⟨h4, h5⟩ := h3
    refine ⟨h4, ?_⟩
    cases keep with
    | none => exact congrArg Lend.Plain.End.ok (plain_stay hI h1)
    | some k =>
      unfold World.kept at hu ⊢
      unfold Lend.Plain.kept
      dsimp only at hu ⊢
      rw [h5]
      cases e : returned c a with
      | none => exact congrArg Lend.Plain.End.ok (plain_stay hI h1)
      | some pn =>
        obtain ⟨p, n⟩ := pn
        rw [e] at hu
        dsimp only [Option.map] at hu ⊢
        rw [plain_ownerOf]
        exact plain_make hI h1 h2 hu

/-! ### Allocating calls -/

theorem plain_argsHeap (hI : Inv P w) {α : Type} {c : HeapCall α} (h1 : w.Within c.shared.ptr c.shared.len) (h2 : ∀ v, c.vec = some v → w.plain.alloc v.buf = w.st.home (w.name v.buf)) :
    w.plain.argsHeap c = untagHeap w.st (w.argsHeap c) := by
  have e1 := alloc_eq hI h1
  unfold Lend.Plain.argsHeap
  cases c <;> dsimp only [HeapCall.shared, HeapCall.vec] at e1 h2 <;> dsimp only [World.argsHeap, untagHeap, place, Spec.untagHeap, Spec.place] <;>
    first
    | simp only [e1, h2 _ rfl]
    | simp only [e1]

theorem viewHeap_move (s : State) (o : Owned) {α : Type} (c : HeapCall α) (r : α) : viewHeap (Moves.move s.home o) c (untagResult s c r) = viewHeap o c r := by
  have hl : Client.len (Moves.move s.home o) = Client.len o := by cases o <;> rfl
  cases c <;> dsimp only [viewHeap, untagResult] <;> rw [hl] <;> rfl

theorem plain_heap (hI : Inv M.P w) {x : Nat} {α : Type} {c : HeapCall α} (h : Legal M w (.heap x c)) :
    sawHeap (w.vars x) c ((w.argsHeap c).tree M.P w.st) = Lend.Plain.sawHeap (w.plain.vars x) c (((w.plain.argsHeap c).prog M.P).run w.plain.mem) ∧
    (w.after ((w.argsHeap c).tree M.P w.st) fun r => w.set x (some (result (w.vars x) c r))).plain =
      w.plain.after (((w.plain.argsHeap c).prog M.P).run w.plain.mem) fun r => w.plain.set x (some (result (w.plain.vars x) c r)) := by
  obtain ⟨-, -, ho⟩ := heap_borrows hI h
  obtain ⟨hr, hs, hv⟩ := h
  have ea : w.plain.argsHeap c = untagHeap w.st (w.argsHeap c) := plain_argsHeap hI (Inits.within hI hs.1) fun v e => by
    rw [e] at hv
    obtain ⟨rfl, -, -, t, ht⟩ := hv
    have hv : ∃ o, w.vars v.buf = some o := by rcases ht with ht | ⟨-, ht⟩ <;> exact ⟨_, ht⟩
    obtain ⟨o, hv⟩ := hv
    unfold Lend.Plain.alloc
    rw [plain_noref (hI.var_name hv).2.2, plain_var hv, (hI.var_name hv).1]
    exact move_owner _ o
  rw [ea, show w.plain.vars x = (w.vars x).map (Moves.move w.st.home) from rfl, show w.plain.mem = w.st.mem from rfl]
  revert ho
  generalize ((untagHeap w.st (w.argsHeap c)).prog M.P).run w.st.mem = o
  intro ho
  unfold ObeysHeap at ho
  cases e : (w.argsHeap c).tree M.P w.st <;> rw [e] at ho <;> cases o <;> first | exact ho.elim | skip
  · rename_i r s' r' m
    obtain ⟨rfl, rfl, hA, -⟩ := ho
    have e1 : result (w.vars x) c (untagResult s' (w.argsHeap c) r) = Moves.move s'.home (result (w.vars x) c r) := by
      cases c <;> first | rfl | (dsimp only [World.argsHeap, untagHeap, untagResult, result]; split <;> rfl)
    have e2 : untagResult s' (w.argsHeap c) r = untagResult s' c r := by cases c <;> rfl
    refine ⟨?_, congrArg Lend.Plain.End.ok ?_⟩
    · show viewHeap _ c r = viewHeap _ c _
      rw [result_old, e1, e2, viewHeap_move]
    · dsimp only
      rw [result_old, e1]
      exact plain_set hI (homes_after hA) x _
  · obtain ⟨rfl, hA, -⟩ := ho
    exact ⟨rfl, congrArg Lend.Plain.End.ok (plain_stay hI (homes_after hA))⟩
  · exact ⟨rfl, rfl⟩

/-! ### All steps -/

theorem plain_new (hI : Inv P w) {x : Nat} {text : Bool} {bs : List Byte} {cap : Nat} (h : bs.length ≤ cap) :
    (exec P w (.new x text bs cap)).plain =
      w.plain.after ((create bs cap).run w.plain.mem) fun b => w.plain.set x (some (if text then .string ⟨b, bs.length, cap⟩ else .vec ⟨b, bs.length, cap⟩)) := by
  obtain ⟨s', e', hh, -, hm, hA, -⟩ := new_value (P := P) hI.sound x text h
  have e : (create bs cap).run w.plain.mem = .ok w.st.mem.nbuf ((w.st.mem.alloc cap).write ⟨w.st.mem.nbuf, 0⟩ bs) := by
    have hz : (w.st.mem.alloc cap).size w.st.mem.nbuf = cap := if_pos rfl
    show (if 0 + bs.length ≤ (w.st.mem.alloc cap).size w.st.mem.nbuf then _ else _) = _
    rw [hz, if_pos (by omega)]; rfl
  rw [e, e']
  refine congrArg Lend.Plain.End.ok ((plain_set hI (homes_after hA) x _).trans ?_)
  cases text with
  | false => dsimp only [Option.map, Moves.move]; rw [if_neg (by decide)]; dsimp only; rw [hh, hm]; rfl
  | true => dsimp only [Option.map, Moves.move]; rw [if_pos rfl]; dsimp only; rw [hh, hm]; rfl

theorem plain_drop (hI : Inv P w) {x : Nat} {o : Owned} (hx : w.vars x = some o) : (exec P w (.drop x)).plain = .ok ⟨w.plain.mem, w.plain.set x none, w.plain.refs⟩ := by
  have h := drop_sim (E := fun _ => False) (drop_eq o) hI.sound (hI.valid x o hx).owns
  show (match w.vars x with | some o => w.after (dropOwned o w.st) fun _ => w.set x none | none => .ub : End).plain = _
  rw [hx]
  dsimp only
  cases e : dropOwned o w.st with
  | err | panic | ub => rw [e] at h; exact h.elim
  | ok a s' =>
    rw [e] at h
    obtain ⟨hm, hA, -⟩ := h
    refine congrArg Lend.Plain.End.ok ((plain_set hI (homes_after hA) x none).trans ?_)
    rw [hm]; rfl

/-- The step with what is seen of it, over plain memory. -/
theorem shows_plain (hI : Inv M.P w) {op : Use.Step} (h : op.Legal M w) {v : Seen} {e : End} (hs : Shows M.P w op v e) : Lend.Plain.Exec M.P w.plain op.op v e.plain := by
  have cast : ∀ {v' : Seen} {e' : Lend.Plain.End}, Lend.Plain.Exec M.P w.plain op.op v' e' → v = v' ∧ e.plain = e' → Lend.Plain.Exec M.P w.plain op.op v e.plain := fun h1 h2 => by rw [h2.1, h2.2]; exact h1
  cases hs with
  | one op =>
    replace h : Legal M w op := h
    have hf := step_fine hI h
    cases op with
    | new x text bs cap => exact cast (.new ..) ⟨rfl, plain_new hI h.2.1⟩
    | move x y =>
      refine cast (.move ..) ⟨rfl, congrArg Lend.Plain.End.ok ?_⟩
      show Lend.Plain.mk _ _ _ = _
      congr 1
      funext z
      show Option.map _ (if z = y then w.vars x else if z = x then none else w.vars z) = if z = y then w.plain.vars x else if z = x then none else w.plain.vars z
      split
      · rfl
      · split <;> rfl
    | truncate x n =>
      refine cast (.truncate ..) ⟨rfl, congrArg Lend.Plain.End.ok ((plain_set hI (homes_refl w) x _).trans ?_)⟩
      rw [show w.plain.vars x = (w.vars x).map (Moves.move w.st.home) from rfl]
      cases w.vars x with
      | none => rfl
      | some o => cases o <;> rfl
    | intoBytes x =>
      refine cast (.intoBytes ..) ⟨rfl, congrArg Lend.Plain.End.ok ((plain_set hI (homes_refl w) x _).trans ?_)⟩
      rw [show w.plain.vars x = (w.vars x).map (Moves.move w.st.home) from rfl]
      cases w.vars x with
      | none => rfl
      | some o => cases o <;> rfl
    | drop x =>
      obtain ⟨⟨o, h1⟩, -⟩ := h
      exact cast (.drop ..) ⟨rfl, plain_drop hI h1⟩
    | borrow k excl init p n =>
      have hin : w.Within p n := by
        cases excl with
        | true => exact CanWrite.within (h.2.2.1 rfl)
        | false => exact Inits.within hI (h.2.2.2 rfl).1
      refine cast (.borrow ..) ⟨rfl, (plain_make hI (homes_refl w) (Nat.le_refl _) fun e => ?_).trans ?_⟩
      · have e : exec M.P w (.borrow k excl init p n) = .ub := e
        rw [e] at hf; exact hf
      · rw [alloc_eq hI hin, plain_ownerOf]; rfl
    | forget k => exact cast (.forget ..) ⟨rfl, congrArg Lend.Plain.End.ok (plain_setRef hI (homes_refl w) k none)⟩
    | write p bs =>
      obtain ⟨o, g⟩ := Within.owner hI (CanWrite.within h)
      have hb : p.off + bs.length ≤ w.st.mem.size (w.st.home (w.name p.buf)) := by rw [g.home, g.owns.size]; exact g.within
      have hs := store_sim (E := fun _ => False) hI.sound (CanWrite.mutable hI h) hb
      rw [← at_eq hI (CanWrite.within h)] at hs
      exact cast (.write ..) ⟨rfl, plain_after hI hs (fun _ _ _ h => homes_after h.2) fun _ h => h.elim⟩
    | read p n =>
      obtain ⟨xs, hl, hx⟩ := Inits.reads hI h.1
      obtain ⟨s', e, hm, hA⟩ := load_shared hI.sound (CanRead.readable hI h) hl hx
      have e2 : (loadBytes (w.plain.at' p) n).run w.plain.mem = .ok xs w.st.mem := by
        rw [at_eq hI (Inits.within hI h.1)]
        subst hl
        show (Prog.load _ _ _).run w.st.mem = _
        rw [prog_run_load, hx.has.read]; rfl
      refine cast (.read ..) ⟨?_, ?_⟩
      · show sawBytes (prog (loadBytes ⟨w.name p.buf, p.off⟩ n) w.st) = _
        rw [e, e2]; rfl
      · show (w.after (prog (loadBytes ⟨w.name p.buf, p.off⟩ n) w.st) fun _ => w.vars).plain = _
        rw [e, e2]
        exact congrArg Lend.Plain.End.ok ((plain_stay hI (homes_after hA)).trans (by rw [hm]))
    | call c keep =>
      obtain ⟨hr, hr', hl, hb⟩ := World.CanCall.borrows hI h
      have ho := C93_call M (w.args c) w.st hr hI.sound hl hb
      refine cast (.call c keep) ?_
      rw [plain_args hI (Inits.within hI h.shared.1) (CanWrite.within h.excl)]
      have e : exec M.P w (.call c keep) = w.kept c keep ((w.args c).tree M.P w.st) := rfl
      refine plain_kept hI ?_ fun e' => by rw [e, e'] at hf; exact hf
      have ho := sim_of_obeys ho fun _ _ => rfl
      exact ho.mono (fun _ _ _ h => ⟨homes_after h.1, h.1.next, alike h.2⟩) fun _ h => homes_after h
    | heap x c => exact cast (.heap x c) (plain_heap hI h)
  | par threads i config src dst keep r hrun =>
    have hf := (par_fine hI h).1 r hrun
    replace h : w.CanCall M (.base64Encode i config src dst) keep := h
    obtain ⟨hr, hr', hl, hb⟩ := h.borrows hI
    obtain ⟨o, h1, h2, -⟩ := C96_par_encode M threads i config _ _ w.st hr hI.sound hl hb
    refine cast (.par threads i config src dst keep o ?_) (plain_kept hI ?_ fun e => by rw [e] at hf; exact hf)
    · rw [at_eq hI (Inits.within hI h.shared.1 : w.Within src.ptr src.len), at_eq hI (CanWrite.within h.excl : w.Within dst.ptr dst.len)]
      exact (h1 o).2 rfl
    · have g := h2 r hrun
      cases r <;> cases o <;> first
        | exact g.elim
        | trivial
        | exact ⟨g.1, homes_after g.2.1, g.2.1.next, ⟨by obtain ⟨rfl, -⟩ := g.2.2; rfl, by obtain ⟨rfl, -⟩ := g.2.2; rfl⟩⟩
        | exact ⟨g.1, homes_after g.2⟩
  | ext c =>
    have hin := Inits.within hI h.2.1
    obtain ⟨xs, hn, hx⟩ := Inits.reads hI h.2.1
    obtain ⟨o, g⟩ := Within.owner hI hin
    have hmax := g.max; have hwi := g.within
    have hb := ext_both M (w.argsExt c) w.st xs (by have := h.1; cases c <;> exact this) hI.sound (by rw [argsExt_shared]; exact CanRead.readable hI h.2)
      (by rw [argsExt_shared]; exact hx) (by rw [argsExt_shared]; exact hn) (by omega)
    have e1 : extPlain w.st (w.argsExt c) = w.plain.ext c := by
      cases c <;> (dsimp only [ExtCall.shared] at hin; dsimp only [World.argsExt, extPlain, Lend.Plain.ext]; rw [at_eq hI hin])
    rw [e1] at hb
    obtain ⟨res, s', -, e2, -, hA⟩ := ext_world hI h hn hx
    have hh : Homes w s' := homes_after hA.after
    obtain ⟨hb, -⟩ := hb
    refine cast (.ext c) ?_
    rw [e2] at hb ⊢
    unfold ExtSame Sim at hb
    rw [show w.plain.mem = w.st.mem from rfl]
    cases res with
    | none =>
      cases eo : (w.plain.ext c).run w.st.mem <;> rw [eo] at hb <;> first | exact hb.elim | skip
      obtain ⟨rfl, -⟩ := hb
      exact ⟨rfl, congrArg Lend.Plain.End.ok (plain_stay hI hh)⟩
    | some r =>
      cases eo : (w.plain.ext c).run w.st.mem <;> rw [eo] at hb <;> first | exact hb.elim | skip
      obtain ⟨rfl, rfl⟩ := hb
      exact ⟨rfl, congrArg Lend.Plain.End.ok (plain_stay hI hh)⟩

/-- Over plain memory a step has one outcome. -/
theorem plain_unique (hI : Inv M.P w) {op : Use.Step} (h : op.Legal M w) {v v' : Seen} {e e' : Lend.Plain.End} (h1 : Lend.Plain.Exec M.P w.plain op.op v e) (h2 : Lend.Plain.Exec M.P w.plain op.op v' e') :
    v = v' ∧ e = e' := by
  cases op with
  | one op => cases op <;> (generalize e0 : Step.op _ = o at h1 h2; cases e0; cases h1; cases h2; exact ⟨rfl, rfl⟩)
  | ext c => cases h1; cases h2; exact ⟨rfl, rfl⟩
  | par threads i config src dst keep =>
    replace h : w.CanCall M (.base64Encode i config src dst) keep := h
    obtain ⟨hr, hr', hl, hb⟩ := h.borrows hI
    obtain ⟨o2, g1, -⟩ := C96_par_encode M threads i config _ _ w.st hr hI.sound hl hb
    cases h1 with
    | par _ _ _ _ _ _ o ho =>
    cases h2 with
    | par _ _ _ _ _ _ o' ho' =>
    rw [at_eq hI (Inits.within hI h.shared.1 : w.Within src.ptr src.len), at_eq hI (CanWrite.within h.excl : w.Within dst.ptr dst.len)] at ho ho'
    rw [(g1 o).1 ho, (g1 o').1 ho']
    exact ⟨rfl, rfl⟩

/-- Something is seen of every execution. -/
theorem shows_of_exec {op : Use.Step} {e : End} (h : Exec P w op e) : ∃ v, Shows P w op v e := by
  cases h with
  | one op => exact ⟨_, .one op⟩
  | par threads i config src dst keep r h => exact ⟨_, .par threads i config src dst keep r h⟩
  | ext c => exact ⟨_, .ext c⟩

theorem exec_of_shows {op : Use.Step} {v : Seen} {e : End} (h : Shows P w op v e) : Exec P w op e := by
  cases h with
  | one op => exact .one op
  | par threads i config src dst keep r h => exact .par threads i config src dst keep r h
  | ext c => exact .ext c

end Simd.Tree.Use
