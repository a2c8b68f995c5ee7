import Verif.Lemmas.LendCalls
import Verif.Lemmas.ClientValue
import Verif.Props.Panics
/-
What programs with references get from the steps they take.
-/
namespace Simd.Lend
open Borrow Spec Client

variable {M : Machine} {P : Plat} {w w' : World}

theorem make_eq {k : Nat} {excl init : Bool} {x : Nat} {p : Ptr} {n : Nat} (h : w.make k excl init x p n = .ok w') :
    ∃ s', w' = ⟨⟨w.vars, s'⟩, w.setRef k (some ⟨w.st.next, p.off, n, excl, init, x⟩)⟩ ∧ s'.mem = w.st.mem ∧ s'.home = fun t => if t = w.st.next then w.st.home p.buf else w.st.home t := by
  unfold World.make retag retagWith at h
  split at h
  · rename_i q s' e
    split at e
    · injection e with e1 e2
      subst e1 e2
      injection h with h
      exact ⟨_, h.symm, rfl, rfl⟩
    · cases e
  · rename_i s' e
    split at e <;> cases e
  · cases h
  · cases h

theorem make_panic {k : Nat} {excl init : Bool} {x : Nat} {p : Ptr} {n : Nat} : w.make k excl init x p n ≠ .panic := by
  unfold World.make retag retagWith
  cases w.st.touch ((if excl = true then Kind.mut else Kind.shared).apply p.buf w.st.next none) p n <;> nofun

theorem kept_panic {α : Type} {c : Call α} {keep : Option Nat} {r : Result α} (h : w.kept c keep r = .panic) : r = .panic := by
  cases r with
  | panic => rfl
  | ub => cases keep <;> cases h
  | err s => cases keep <;> cases h
  | ok a s =>
    cases keep with
    | none => cases h
    | some k =>
      replace h : (match returned c a with | some (p, n) => World.make { w with st := s } k true true (w.ownerOf c.exclusive.1.buf) p n | none => .ok { w with st := s }) = End.panic := h
      cases e : returned c a with
      | none => rw [e] at h; cases h
      | some pn => rw [e] at h; exact absurd h make_panic

theorem returned_gives {α : Type} (c : Call α) (a : α) : (returned c a).isSome ↔ GivesSlice c := by
  cases c <;> first | exact ⟨fun _ => trivial, fun _ => rfl⟩ | exact ⟨nofun, False.elim⟩

theorem function_args {α : Type} (c : Call α) : function (untag w.st (w.args c)) = function c := by cases c <;> rfl
theorem means_args {α : Type} {c : Call α} {xs : List Byte} {d : Nat} {res : Option (List Byte)} (h : CallMeans xs d res (untag w.st (w.args c))) : CallMeans xs d res c := by
  have := (means_function _ _ _ _).1 h
  rw [function_args] at this
  exact (means_function _ _ _ _).2 this
theorem shortSwap_args {α : Type} {c : Call α} (h : ShortSwap (untag w.st (w.args c))) : ShortSwap c := by cases c <;> exact h

/-- The name of a slice that is written is in use. -/
theorem within_ne {p : Ptr} {n k : Nat} (h : w.Within p n) (hk : w.Unused k) : p.buf ≠ k := fun e => by
  subst e
  rcases h with ⟨o, h, -⟩ | ⟨ρ, h, -⟩
  · rw [hk.1] at h; cases h
  · rw [hk.2] at h; cases h

/-- A name that is in use stands for the same after a step that does not change it. -/
theorem name_stays {p : Ptr} {n : Nat} (h : w.Within p n) {s' : State} {refs : Nat → Option Ref} (hr : refs p.buf = w.refs p.buf) : World.name ⟨⟨w.vars, s'⟩, refs⟩ p.buf = w.name p.buf := by
  unfold World.name
  dsimp only
  rw [hr]
  rcases h with ⟨o, h, -⟩ | ⟨ρ, h, -⟩
  · cases w.refs p.buf with
    | some ρ => rfl
    | none => exact (tag_eq (w := ⟨w.vars, s'⟩) h).trans (tag_eq h).symm
  · rw [h]

/-- What is left after a call. -/
theorem kept_value (hI : RInv M.P w) {α : Type} {c : Call α} {keep : Option Nat} (h : w.CanCall M c keep) {r : Result α} (hw : w.kept c keep r = .ok w') {xs : List Byte}
    (hok : ∀ a s', r = .ok a s' → AfterCall w.st s' (loans w.st (w.args c)) ∧ ∃ a' ys, SameResult s' (w.args c) a a' ∧ CallReturns xs ys (untag w.st (w.args c)) a' ∧
      Reads s'.mem (place w.st ⟨w.name c.exclusive.1.buf, c.exclusive.1.off⟩) ys ∧ CallMeans xs c.exclusive.2 (some ys) c)
    (herr : ∀ s', r = .err s' → CallMeans xs c.exclusive.2 none c) : ∃ res, CallMeans xs c.exclusive.2 res c ∧ w.Ended w' c keep res := by
  obtain ⟨o, -, h2, -⟩ := Within.owner hI (CanWrite.within h.excl)
  have hplace : ∀ s', AfterCall w.st s' (loans w.st (w.args c)) → place s' ⟨w.name c.exclusive.1.buf, c.exclusive.1.off⟩ = place w.st ⟨w.name c.exclusive.1.buf, c.exclusive.1.off⟩ :=
    fun s' hA => by unfold place; rw [hA.home _ h2]
  cases r with
  | ub => cases keep <;> cases hw
  | panic => cases keep <;> cases hw
  | err s' =>
    have : w' = { w with st := s' } := by cases keep <;> (injection hw with hw; exact hw.symm)
    subst this
    exact ⟨none, herr s' rfl, rfl, rfl⟩
  | ok a s' =>
    obtain ⟨hA, a', ys, h4, h5, h7, h8⟩ := hok a s' rfl
    refine ⟨some ys, h8, ?_⟩
    have hb : World.Bytes { w with st := s' } c.exclusive.1 ys := by
      show Reads s'.mem (place s' ⟨World.name _ _, _⟩) ys
      rw [name_stays (CanWrite.within h.excl) rfl, hplace s' hA]; exact h7
    cases keep with
    | none =>
      injection hw with hw
      subst hw
      exact ⟨rfl, hb, fun _ => rfl, rfl⟩
    | some k =>
      replace hw : (match returned c a with | some (p, n) => World.make { w with st := s' } k true true (w.ownerOf c.exclusive.1.buf) p n | none => .ok { w with st := s' }) = End.ok w' := hw
      have hg := returned_gives c a
      cases e : returned c a with
      | none =>
        rw [e] at hw hg
        injection hw with hw
        subst hw
        exact ⟨rfl, hb, fun _ => rfl, fun h => by have := hg.2 h; cases this⟩
      | some pn =>
        obtain ⟨p, n⟩ := pn
        rw [e] at hw hg
        obtain ⟨h8, h9, h10⟩ := returned_ok w.st h4 h5 (by rw [returned_args]; exact e)
        rw [plain_exclusive] at h9
        obtain ⟨s2, rfl, hm, hh⟩ := make_eq hw
        refine ⟨rfl, ?_, fun hn => absurd (hg.1 rfl) hn, fun _ => ⟨_, rfl, rfl, rfl, rfl, ?_, h10⟩⟩
        · have hne := within_ne (CanWrite.within h.excl) (h.keep k rfl)
          have e1 := name_stays (s' := s2) (refs := World.setRef { w with st := s' } k (some ⟨s'.next, p.off, n, true, true, w.ownerOf c.exclusive.1.buf⟩)) (CanWrite.within h.excl) (if_neg hne)
          show Reads s2.mem (place s2 ⟨World.name _ _, _⟩) ys
          rw [e1, hm]
          have e2 : place s2 ⟨w.name c.exclusive.1.buf, c.exclusive.1.off⟩ = place s' ⟨w.name c.exclusive.1.buf, c.exclusive.1.off⟩ := by
            unfold place
            have : w.name c.exclusive.1.buf ≠ s'.next := by have := hA.next; omega
            rw [hh]
            dsimp only
            rw [if_neg this]
          rw [e2, hplace s' hA]; exact h7
        · have := congrArg (fun q : Ptr => q.off) h9; exact this

/-- What a call leaves. -/
theorem call_value (hI : RInv M.P w) {α : Type} {c : Call α} {keep : Option Nat} (h : w.CanCall M c keep) (hw : w.kept c keep ((w.args c).borrow M.P w.st) = .ok w') {xs : List Byte}
    (hl : xs.length = (input c).2) (hx : w.Bytes (input c).1 xs) : ∃ res, CallMeans xs c.exclusive.2 res c ∧ w.Ended w' c keep res := by
  obtain ⟨hr, hr', hld, hb⟩ := h.borrows hI
  have ho := C85_call M (w.args c) w.st hr hI.base.sound hld hb
  obtain ⟨res, hm, hc⟩ := C90_call M _ w.st.mem hr' hb (xs := xs) (by rw [plain_input]; exact hl) (by rw [plain_input]; exact hx)
  rw [plain_exclusive] at hm hc
  have hm := means_args hm
  unfold Obeys at ho
  refine kept_value hI h hw (xs := xs) (fun a s' e => ?_) fun s' e => ?_
  · rw [e] at ho
    cases e' : ((untag w.st (w.args c)).prog M.P).run w.st.mem with
    | ok a' m' =>
      rw [e'] at ho hc
      obtain ⟨rfl, h1, h2⟩ := ho
      obtain ⟨ys, rfl, h3, h4, h5, -⟩ := hc
      exact ⟨h1, a', ys, h2, h3, h5, hm⟩
    | err | panic | ub => rw [e'] at ho; exact ho.elim
  · rw [e] at ho
    cases e' : ((untag w.st (w.args c)).prog M.P).run w.st.mem with
    | err m' =>
      rw [e'] at hc
      obtain ⟨rfl, -⟩ := hc
      exact hm
    | ok | panic | ub => rw [e'] at ho; exact ho.elim

theorem call_panics (hI : RInv M.P w) {α : Type} {c : Call α} {keep : Option Nat} (h : w.CanCall M c keep) (hw : w.kept c keep ((w.args c).borrow M.P w.st) = .panic) : ShortSwap c := by
  have hw := kept_panic hw
  obtain ⟨hr, hr', hld, hb⟩ := h.borrows hI
  obtain ⟨xs, hxl, hx⟩ := h.input hI
  have ho := C85_call M (w.args c) w.st hr hI.base.sound hld hb
  obtain ⟨res, -, hc⟩ := C90_call M _ w.st.mem hr' hb hxl hx
  unfold Obeys at ho
  rw [hw] at ho
  cases e' : ((untag w.st (w.args c)).prog M.P).run w.st.mem with
  | panic => rw [e'] at hc; exact shortSwap_args hc
  | ok | err | ub => rw [e'] at ho; exact ho.elim

/-- What `par_encode` leaves. -/
theorem par_ends (hI : RInv M.P w) {threads : Nat} {i : Option Isa} {config : Base64.Config} {src dst : Slice} {keep : Option Nat} (h : w.CanCall M (.base64Encode i config src dst) keep) {r : Result Slice}
    (hr : Split.Outcome (Borrow.Base64.par_encode M.P threads i config ⟨⟨w.name src.ptr.buf, src.ptr.off⟩, src.len⟩ ⟨⟨w.name dst.ptr.buf, dst.ptr.off⟩, dst.len⟩) w.st r) {xs : List Byte}
    (hl : xs.length = src.len) (hx : w.Bytes src.ptr xs) :
    (∀ w', w.kept (.base64Encode i config src dst) keep r = .ok w' → ∃ res, CallMeans xs dst.len res (.base64Encode i config src dst) ∧ w.Ended w' (.base64Encode i config src dst) keep res) ∧
    (w.kept (.base64Encode i config src dst) keep r = .panic → M.P.usizeMax < threads * 4096 ∨ CallMeans xs dst.len none (.base64Encode i config src dst)) := by
  obtain ⟨hrn, hr', hld, hb⟩ := h.borrows hI
  obtain ⟨o, h1, h2, -⟩ := C91_par_encode M threads i config _ _ w.st hrn hI.base.sound hld hb
  have hv := par_value M threads i config _ _ _ w.st.mem hl.symm hx hr' hb ((h1 o).2 rfl)
  have hs := h2 r hr
  refine ⟨fun w' hw => kept_value hI h hw (xs := xs) (fun a s' e => ?_) fun s' e => ?_, fun hw => ?_⟩
  · subst e
    cases o with
    | ok a' m' =>
      obtain ⟨rfl, g1, g2⟩ := hs
      obtain ⟨-, -, ys, g5, -, g7, g8⟩ := hv.1 a' _ rfl
      exact ⟨g1, a', ys, g2, g5, g7, g8⟩
    | err | panic | ub => exact hs.elim
  · subst e
    cases o with
    | err m' =>
      obtain ⟨-, -, g⟩ := hv.2.1 _ rfl
      exact g
    | ok | panic | ub => exact hs.elim
  · have hw := kept_panic hw
    subst hw
    cases o with
    | panic => exact hv.2.2 rfl
    | ok | err | ub => exact hs.elim

/-- A call that allocates goes on unless the result could be too long. -/
theorem heap_goes_on (hI : RInv M.P w) {x : Nat} {α : Type} {c : HeapCall α} (h : Legal M w (.heap x c)) (hm : c.held + 2 * c.shared.len + 6 + c.extra ≤ M.P.isizeMax) :
    w.owned (w.toWorld.after ((w.argsHeap c).borrow M.P w.st) fun r => w.set x (some (Client.result (w.vars x) c r))) ≠ .panic := by
  obtain ⟨hsome, htag, -⟩ := heap_args hI h
  obtain ⟨hr, hs, -⟩ := h
  obtain ⟨hr', hb, ho⟩ := heap_borrows' (tg := w.name) hI.base hr (CanRead.source hI hs) hsome htag
  have := C83_never M _ _ hr' hb (by cases c <;> exact hm)
  unfold ObeysHeap at ho
  show w.owned (w.toWorld.after ((withTags w.toWorld w.name c).borrow M.P w.st) _) ≠ _
  cases e : (withTags w.toWorld w.name c).borrow M.P w.st with
  | ok => nofun
  | err => nofun
  | ub => nofun
  | panic =>
    rw [e] at ho
    rcases this with ⟨_, _, e'⟩ | ⟨_, e'⟩ <;> (rw [e'] at ho; exact ho.elim)

theorem load_panic (p : Ptr) (n : Nat) (s : State) : prog (loadBytes p n) s ≠ .panic := by
  have e' : prog (loadBytes p n) s = match s.touch (Stack.read p.buf) p n, s.mem.read (place s p) n with | some st, some bs => .ok bs { s with stack := st } | _, _ => .ub := by
    unfold loadBytes
    rw [prog]
    show (match s.touch (Stack.read p.buf) p n, s.mem.read (place s p) n with | some st, some bs => _ | _, _ => _) = _
    cases s.touch (Stack.read p.buf) p n <;> cases s.mem.read (place s p) n <;> rfl
  rw [e']
  split <;> nofun

theorem store_panic (p : Ptr) (bs : List Byte) (s : State) : prog (storeBytes p bs) s ≠ .panic := by
  have e' : prog (storeBytes p bs) s = match s.touch (Stack.write p.buf) p bs.length with
      | some st => if p.off + bs.length ≤ s.mem.size (s.home p.buf) then .ok () { s with stack := st, mem := s.mem.write (place s p) bs } else .ub
      | none => .ub := rfl
  rw [e']
  split
  · split <;> nofun
  · nofun

theorem after_panic {α : Type} {r : Result α} (h : w.after r = .panic) : r = .panic := by cases r <;> first | rfl | cases h

theorem drop_panic (hI : RInv M.P w) {x : Nat} {o : Owned} (hx : w.vars x = some o) : w.owned (Client.exec M.P w.toWorld (.drop x)) ≠ .panic := by
  have h1 := drop_sim (E := fun _ => False) (drop_eq o) (hI.base.valid x o hx).owns
  have e : Client.exec M.P w.toWorld (.drop x) = w.toWorld.after (dropOwned o w.st) fun _ => w.set x none := by
    show (match w.vars x with | some o => w.toWorld.after (dropOwned o w.st) fun _ => w.set x none | none => .ub) = _
    rw [hx]
  rw [e]
  cases e1 : dropOwned o w.st with
  | panic => rw [e1] at h1; exact h1.elim
  | ok | err | ub => nofun

end Simd.Lend
