import Verif.Lemmas.TreeUseCalls
import Verif.Lemmas.LendValue
/-
What programs with references get from the steps they take, with borrow trees.
-/
namespace Simd.Tree.Use
open Spec
open Lend (Ref returned)


variable {M : Machine} {P : Plat} {w w' : World}

theorem make_eq {k : Nat} {excl init : Bool} {x : Nat} {p : Ptr} {n : Nat} (h : w.make k excl init x p n = .ok w') :
    ∃ s', w' = ⟨w.vars, s', w.setRef k (some ⟨w.st.next, p.off, n, excl, init, x⟩)⟩ ∧ s'.mem = w.st.mem ∧ s'.home = fun t => if t = w.st.next then w.st.home p.buf else w.st.home t := by
  unfold World.make retag retagWith at h
  cases e : w.st.touch false p n with
  | none => rw [e] at h; cases h
  | some c =>
    rw [e] at h
    injection h with h
    exact ⟨_, h.symm, rfl, rfl⟩

theorem make_panic {k : Nat} {excl init : Bool} {x : Nat} {p : Ptr} {n : Nat} : w.make k excl init x p n ≠ .panic := by
  unfold World.make retag retagWith
  cases w.st.touch false p n <;> nofun

theorem kept_panic {α : Type} {c : Call α} {keep : Option Nat} {r : Result α} (h : w.kept c keep r = .panic) : r = .panic := by
  cases r with
  | panic => rfl
  | ub => cases keep <;> cases h
  | err s => cases keep <;> cases h
  | ok a s =>
    cases keep with
    | none => cases h
    | some k =>
      replace h : (match returned c a with | some (p, n) => World.make { w with st := s } k true true (w.ownerOf c.exclusive.1.buf) p n | none => .ok { w with st := s }) = End.panic := h
      cases e : returned c a with
      | none => rw [e] at h; cases h
      | some pn => rw [e] at h; exact absurd h make_panic

theorem function_args {α : Type} (c : Call α) : function (untag w.st (w.args c)) = function c := by cases c <;> rfl
theorem means_args {α : Type} {c : Call α} {xs : List Byte} {d : Nat} {res : Option (List Byte)} (h : CallMeans xs d res (untag w.st (w.args c))) : CallMeans xs d res c := by
  have := (means_function _ _ _ _).1 h
  rw [function_args] at this
  exact (means_function _ _ _ _).2 this
theorem shortSwap_args {α : Type} {c : Call α} (h : ShortSwap (untag w.st (w.args c))) : ShortSwap c := by cases c <;> exact h

/-- The name of a slice that is written is in use. -/
theorem within_ne {p : Ptr} {n k : Nat} (h : w.Within p n) (hk : w.Unused k) : p.buf ≠ k := fun e => by
  subst e
  rcases h with ⟨o, h, -⟩ | ⟨ρ, h, -⟩
  · rw [hk.1] at h; cases h
  · rw [hk.2] at h; cases h

/-- A name that is in use stands for the same after a step that does not change it. -/
theorem name_stays {p : Ptr} {n : Nat} (h : w.Within p n) {s' : State} {refs : Nat → Option Ref} (hr : refs p.buf = w.refs p.buf) : World.name ⟨w.vars, s', refs⟩ p.buf = w.name p.buf := by
  unfold World.name
  dsimp only
  rw [hr]
  rcases h with ⟨o, h, -⟩ | ⟨ρ, h, -⟩
  · cases w.refs p.buf with
    | some ρ => rfl
    | none => rw [h]
  · rw [h]

/-- What is left after a call. -/
theorem kept_value (hI : Inv M.P w) {α : Type} {c : Call α} {keep : Option Nat} (h : w.CanCall M c keep) {r : Result α} (hw : w.kept c keep r = .ok w') {xs : List Byte}
    (hok : ∀ a s', r = .ok a s' → AfterCall w.st s' (loans w.st (w.args c)) ∧ ∃ a' ys, SameResult w.st s' (w.args c) a a' ∧ CallReturns xs ys (untag w.st (w.args c)) a' ∧
      Reads s'.mem (place w.st ⟨w.name c.exclusive.1.buf, c.exclusive.1.off⟩) ys ∧ CallMeans xs c.exclusive.2 (some ys) c)
    (herr : ∀ s', r = .err s' → CallMeans xs c.exclusive.2 none c) : ∃ res, CallMeans xs c.exclusive.2 res c ∧ w.Ended w' c keep res := by
  obtain ⟨o, g⟩ := Within.owner hI (CanWrite.within h.excl)
  have h2 := g.tag
  have hplace : ∀ s', AfterCall w.st s' (loans w.st (w.args c)) → place s' ⟨w.name c.exclusive.1.buf, c.exclusive.1.off⟩ = place w.st ⟨w.name c.exclusive.1.buf, c.exclusive.1.off⟩ :=
    fun s' hA => by unfold place; rw [hA.home _ h2]
  cases r with
  | ub => cases keep <;> cases hw
  | panic => cases keep <;> cases hw
  | err s' =>
    have : w' = { w with st := s' } := by cases keep <;> (injection hw with hw; exact hw.symm)
    subst this
    exact ⟨none, herr s' rfl, rfl, rfl⟩
  | ok a s' =>
    obtain ⟨hA, a', ys, h4, h5, h7, h8⟩ := hok a s' rfl
    refine ⟨some ys, h8, ?_⟩
    have hb : World.Bytes { w with st := s' } c.exclusive.1 ys := by
      show Reads s'.mem (place s' ⟨World.name _ _, _⟩) ys
      rw [name_stays (CanWrite.within h.excl) rfl, hplace s' hA]; exact h7
    cases keep with
    | none =>
      injection hw with hw
      subst hw
      exact ⟨rfl, hb, fun _ => rfl, rfl⟩
    | some k =>
      replace hw : (match returned c a with | some (p, n) => World.make { w with st := s' } k true true (w.ownerOf c.exclusive.1.buf) p n | none => .ok { w with st := s' }) = End.ok w' := hw
      have hg := Lend.returned_gives c a
      cases e : returned c a with
      | none =>
        rw [e] at hw hg
        injection hw with hw
        subst hw
        exact ⟨rfl, hb, fun _ => rfl, fun h => by have := hg.2 h; cases this⟩
      | some pn =>
        obtain ⟨p, n⟩ := pn
        rw [e] at hw hg
        obtain ⟨-, -, h9, h10⟩ := returned_ok h4 h5 (by rw [returned_args]; exact e)
        rw [plain_exclusive] at h9
        obtain ⟨s2, rfl, hm, hh⟩ := make_eq hw
        refine ⟨rfl, ?_, fun hn => absurd (hg.1 rfl) hn, fun _ => ⟨_, rfl, rfl, rfl, rfl, ?_, h10⟩⟩
        · have hne := within_ne (CanWrite.within h.excl) (h.keep k rfl)
          have e1 := name_stays (s' := s2) (refs := World.setRef { w with st := s' } k (some ⟨s'.next, p.off, n, true, true, w.ownerOf c.exclusive.1.buf⟩)) (CanWrite.within h.excl) (if_neg hne)
          show Reads s2.mem (place s2 ⟨World.name _ _, _⟩) ys
          rw [e1, hm]
          have e2 : place s2 ⟨w.name c.exclusive.1.buf, c.exclusive.1.off⟩ = place s' ⟨w.name c.exclusive.1.buf, c.exclusive.1.off⟩ := by
            unfold place
            have : w.name c.exclusive.1.buf ≠ s'.next := by have := hA.next; omega
            rw [hh]
            dsimp only
            rw [if_neg this]
          rw [e2, hplace s' hA]; exact h7
        · have := congrArg (fun q : Ptr => q.off) h9; exact this

/-- What a call leaves. -/
theorem call_value (hI : Inv M.P w) {α : Type} {c : Call α} {keep : Option Nat} (h : w.CanCall M c keep) (hw : w.kept c keep ((w.args c).tree M.P w.st) = .ok w') {xs : List Byte}
    (hl : xs.length = (input c).2) (hx : w.Bytes (input c).1 xs) : ∃ res, CallMeans xs c.exclusive.2 res c ∧ w.Ended w' c keep res := by
  obtain ⟨hr, hr', hld, hb⟩ := h.borrows hI
  have ho := C93_call M (w.args c) w.st hr hI.sound hld hb
  obtain ⟨res, hm, hc⟩ := C90_call M _ w.st.mem hr' hb (xs := xs) (by rw [plain_input]; exact hl) (by rw [plain_input]; exact hx)
  rw [plain_exclusive] at hm hc
  have hm := means_args hm
  unfold Obeys at ho
  refine kept_value hI h hw (xs := xs) (fun a s' e => ?_) fun s' e => ?_
  · rw [e] at ho
    cases e' : ((untag w.st (w.args c)).prog M.P).run w.st.mem with
    | ok a' m' =>
      rw [e'] at ho hc
      obtain ⟨rfl, h1, h2⟩ := ho
      obtain ⟨ys, rfl, h3, h4, h5, -⟩ := hc
      exact ⟨h1, a', ys, h2, h3, h5, hm⟩
    | err | panic | ub => rw [e'] at ho; exact ho.elim
  · rw [e] at ho
    cases e' : ((untag w.st (w.args c)).prog M.P).run w.st.mem with
    | err m' =>
      rw [e'] at hc
      obtain ⟨rfl, -⟩ := hc
      exact hm
    | ok | panic | ub => rw [e'] at ho; exact ho.elim

theorem call_panics (hI : Inv M.P w) {α : Type} {c : Call α} {keep : Option Nat} (h : w.CanCall M c keep) (hw : w.kept c keep ((w.args c).tree M.P w.st) = .panic) : ShortSwap c := by
  have hw := kept_panic hw
  obtain ⟨hr, hr', hld, hb⟩ := h.borrows hI
  obtain ⟨xs, hxl, hx⟩ := h.input hI
  have ho := C93_call M (w.args c) w.st hr hI.sound hld hb
  obtain ⟨res, -, hc⟩ := C90_call M _ w.st.mem hr' hb hxl hx
  unfold Obeys at ho
  rw [hw] at ho
  cases e' : ((untag w.st (w.args c)).prog M.P).run w.st.mem with
  | panic => rw [e'] at hc; exact shortSwap_args hc
  | ok | err | ub => rw [e'] at ho; exact ho.elim

theorem after_panic {α : Type} {r : Result α} {f : α → Nat → Option Owned} (h : w.after r f = .panic) : r = .panic := by cases r <;> first | rfl | cases h

/-- A call that allocates goes on unless the result could be too long. -/
theorem heap_goes_on (hI : Inv M.P w) {x : Nat} {α : Type} {c : HeapCall α} (h : Legal M w (.heap x c)) (hm : c.held + 2 * c.shared.len + 6 + c.extra ≤ M.P.isizeMax) : exec M.P w (.heap x c) ≠ .panic := fun hp => by
  obtain ⟨hr', hb, ho⟩ := heap_borrows hI h
  have := C83_never M _ _ hr' hb (by cases c <;> exact hm)
  unfold ObeysHeap at ho
  have e : (w.argsHeap c).tree M.P w.st = .panic := after_panic hp
  rw [e] at ho
  rcases this with ⟨_, _, e'⟩ | ⟨_, e'⟩ <;> (rw [e'] at ho; exact ho.elim)

theorem load_panic (p : Ptr) (n : Nat) (s : State) : prog (loadBytes p n) s ≠ .panic := by
  have e' : prog (loadBytes p n) s = match s.touch false p n, s.mem.read (place s p) n with | some st, some bs => .ok bs { s with cell := st } | _, _ => .ub := by
    unfold loadBytes
    rw [prog]
    show (match s.touch false p n, s.mem.read (place s p) n with | some st, some bs => _ | _, _ => _) = _
    cases s.touch false p n <;> cases s.mem.read (place s p) n <;> rfl
  rw [e']
  split <;> nofun

theorem store_panic (p : Ptr) (bs : List Byte) (s : State) : prog (storeBytes p bs) s ≠ .panic := by
  have e' : prog (storeBytes p bs) s = match s.touch true p bs.length with
      | some st => if p.off + bs.length ≤ s.mem.size (s.home p.buf) then .ok () { s with cell := st, mem := s.mem.write (place s p) bs } else .ub
      | none => .ub := rfl
  rw [e']
  split
  · split <;> nofun
  · nofun

end Simd.Tree.Use
