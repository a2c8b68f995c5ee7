import Verif.Lemmas.TreeUseSteps
import Verif.Props.TreeBorrows
/-
Calls keep the variables and references of a program valid, with borrow trees, and so do slices that they return.
-/
namespace Simd.Tree.Use
open Spec
open Lend (Ref returned)
open Client (IsText AppendsText InPlace)

variable {M : Machine} {P : Plat} {w : World} {T : Option Nat}

theorem args_shared {α : Type} (c : Call α) : (w.args c).shared = (⟨w.name c.shared.1.buf, c.shared.1.off⟩, c.shared.2) := by cases c <;> rfl
theorem args_exclusive {α : Type} (c : Call α) : (w.args c).exclusive = (⟨w.name c.exclusive.1.buf, c.exclusive.1.off⟩, c.exclusive.2) := by cases c <;> rfl
theorem plain_shared {α : Type} (c : Call α) : (untag w.st (w.args c)).shared = (place w.st ⟨w.name c.shared.1.buf, c.shared.1.off⟩, c.shared.2) := by cases c <;> rfl
theorem plain_exclusive {α : Type} (c : Call α) : (untag w.st (w.args c)).exclusive = (place w.st ⟨w.name c.exclusive.1.buf, c.exclusive.1.off⟩, c.exclusive.2) := by cases c <;> rfl
theorem plain_input {α : Type} (c : Call α) : input (untag w.st (w.args c)) = (place w.st ⟨w.name (input c).1.buf, (input c).1.off⟩, (input c).2) := by cases c <;> rfl
theorem returned_args {α : Type} (c : Call α) (a : α) : returned (w.args c) a = returned c a := by cases c <;> rfl

/-- What safe Rust guarantees is what the theorems about the calls ask for. -/
theorem World.CanCall.borrows (hI : Inv M.P w) {α : Type} {c : Call α} {keep : Option Nat} (h : w.CanCall M c keep) :
    (w.args c).RunsOn M ∧ (untag w.st (w.args c)).RunsOn M ∧ Lends w.st (w.args c) ∧ (untag w.st (w.args c)).Borrows M.P w.st.mem := by
  obtain ⟨o, g⟩ := Within.owner hI (CanWrite.within h.excl)
  obtain ⟨os, gs⟩ := Within.owner hI (Inits.within hI h.shared.1)
  have hmax := g.max; have hwi := g.within
  have hmaxs := gs.max; have hwis := gs.within
  refine ⟨?_, ?_, ⟨?_, ?_⟩, ?_⟩
  · have := h.runs; cases c <;> exact this
  · have := h.runs; cases c <;> exact this
  · rw [args_shared]; exact CanRead.readable hI h.shared
  · rw [args_exclusive]; exact CanWrite.mutable hI h.excl
  · refine ⟨by rw [plain_shared]; exact Inits.reads hI h.shared.1, ?_, by rw [plain_shared]; dsimp only; omega, by rw [plain_exclusive]; dsimp only; omega, ?_⟩
    · rw [plain_exclusive]
      show c.exclusive.1.off + c.exclusive.2 ≤ w.st.mem.size (w.st.home _)
      rw [g.home, g.owns.size]; exact g.within
    · have hi := h.inplace
      have ha := h.apart
      cases c <;> first | exact trivial | exact Inits.reads hI (hi trivial) | exact ha

/-- The input of a call is initialised. -/
theorem World.CanCall.input (hI : Inv M.P w) {α : Type} {c : Call α} {keep : Option Nat} (h : w.CanCall M c keep) :
    ∃ xs, xs.length = (input (untag w.st (w.args c))).2 ∧ Reads w.st.mem (input (untag w.st (w.args c))).1 xs := by
  rw [plain_input]
  refine Inits.reads (p := (Spec.input c).1) hI ?_
  rcases Lend.input_cases c with ⟨hp, e⟩ | e <;> rw [e]
  · exact h.inplace hp
  · exact h.shared.1

/-- After a call. -/
theorem World.CanCall.after (hI : Inv M.P w) {α : Type} {c : Call α} {keep : Option Nat} (h : w.CanCall M c keep) {s' : State} (hA : AfterCall w.st s' (loans w.st (w.args c)))
    (hm : MemAfter w.st.mem s'.mem (In (place w.st ⟨w.name c.exclusive.1.buf, c.exclusive.1.off⟩) c.exclusive.2)) (hn : s'.mem.nbuf = w.st.mem.nbuf) :
    Inv M.P ⟨w.vars, s', w.refs⟩ ∧ Frozen w ⟨w.vars, s', w.refs⟩ (some (w.name c.exclusive.1.buf)) := by
  refine hI.stay hA hm hn (fun b i => ?_) fun b i hi => ⟨_, rfl, CanWrite.permits hI h.excl hi⟩
  unfold loans
  rw [args_shared, args_exclusive]
  dsimp only
  split
  · rename_i hi; exact (CanRead.permits hI h.shared hi).spares hI
  · split
    · rename_i hi; exact (CanWrite.permits hI h.excl hi).spares hI
    · exact fun _ _ _ _ _ => ⟨trivial, fun _ _ _ _ => trivial⟩

/-- A slice that a call returned is kept. -/
theorem World.CanCall.keeps (hI : Inv M.P w) {α : Type} {c : Call α} {k : Nat} (h : w.CanCall M c (some k)) {s' : State} (hA : AfterCall w.st s' (loans w.st (w.args c)))
    (hI' : Inv M.P ⟨w.vars, s', w.refs⟩) (hF : Frozen w ⟨w.vars, s', w.refs⟩ T) {p : Ptr} {n : Nat} (hp : place s' p = place w.st ⟨w.name c.exclusive.1.buf, c.exclusive.1.off⟩)
    (hn : n ≤ c.exclusive.2) (hM : Made w.st s' (w.name c.exclusive.1.buf) p.buf) (ht : Mutable s' p n) (hc : ∃ xs, xs.length = n ∧ Reads s'.mem (place s' p) xs) :
    Fine M.P w T (World.make { w with st := s' } k true true (w.ownerOf c.exclusive.1.buf) p n) := by
  obtain ⟨o, g⟩ := Within.owner hI (CanWrite.within h.excl)
  have hk := h.keep k rfl
  have hwi := g.within
  have htag := hI.tag g.var
  have hoff : p.off = c.exclusive.1.off := by have := congrArg (fun q : Ptr => q.off) hp; exact this
  have hbuf : s'.home p.buf = w.st.home (w.name c.exclusive.1.buf) := by have := congrArg (fun q : Ptr => q.buf) hp; exact this
  have hin : ∀ b i, In (place s' p) n b i → In (place w.st ⟨w.name c.exclusive.1.buf, c.exclusive.1.off⟩) c.exclusive.2 b i := fun b i hi => by
    rw [hp] at hi
    exact ⟨hi.1, hi.2.1, by have := hi.2.2; omega⟩
  have key := make_fine (T := T) (w := ⟨w.vars, s', w.refs⟩) hI' (k := k) hk (x := w.ownerOf c.exclusive.1.buf) (o := o) g.var (excl := true) (init := true) (p := p) (n := n)
    (by show s'.home p.buf = s'.home _; rw [hbuf, g.home, hA.home _ htag]) (by omega) (fun _ h' => by have := CanWrite.not_text hI h.excl g.var h'; omega) (fun _ => hc) ht.readable (fun _ => ht)
    (by show s'.up p.buf _ = true; rw [hM.line _ htag]; exact g.up) (fun r ρ b i hr hi hc' => ?_)
  · revert key
    cases World.make { w with st := s' } k true true (w.ownerOf c.exclusive.1.buf) p n with
    | ok w2 => exact fun key => ⟨key.1, hF.trans key.2 fun r ρ hr _ => hr⟩
    | panic => exact fun _ => trivial
    | ub => exact id
  · obtain ⟨o', -, h7⟩ := hI.refs r ρ hr
    have hcv : w.Covers ρ b i := ⟨hc'.1.trans (hA.home _ h7.tag), hc'.2⟩
    have hi' := hin b i hi
    have hpm := CanWrite.permits hI h.excl hi'
    refine ⟨fun _ => ?_, fun _ => hpm.no_shared hI hr hcv⟩
    show s'.up p.buf ρ.tag = true
    rw [hM.line _ h7.tag]
    have hb : w.st.home (Spec.ownerOf o).1.buf = b := by rw [← g.home]; exact hi'.1.symm
    have hi2 : i < (Spec.ownerOf o).2 := by have := hi'.2.2; dsimp only [place] at *; omega
    exact ((hpm.spares hI _ o g.var hb hi2).2 r ρ hr hcv).2

/-- The slice that a call returns. -/
theorem returned_ok {s s' : State} {α : Type} {c : Call α} {r r' : α} (h : SameResult s s' c r r') {xs ys : List Byte} (h2 : CallReturns xs ys (untag s c) r') {p : Ptr} {n : Nat} (e : returned c r = some (p, n)) :
    Made s s' c.exclusive.1.buf p.buf ∧ Mutable s' p n ∧ place s' p = (untag s c).exclusive.1 ∧ n = ys.length := by
  cases c <;> first
    | (cases e; done)
    | (cases e
       obtain ⟨h, h1, h3⟩ := h
       rw [Nat.one_mul] at h3
       replace h2 := h.symm.trans h2
       exact ⟨h1, h3, congrArg Slice.ptr h2, congrArg Slice.len h2⟩)
    | (cases e
       obtain ⟨h, h1, h3⟩ := h
       rw [h] at h2
       exact ⟨h1, h3, h2.1, h2.2⟩)

/-- A call that ends like the program without borrow trees, with what `CallMeans` says. -/
theorem World.CanCall.fine (hI : Inv M.P w) {α : Type} {c : Call α} {keep : Option Nat} (h : w.CanCall M c keep) {r : Result α} (hu : r ≠ .ub)
    (hok : ∀ a s', r = .ok a s' → AfterCall w.st s' (loans w.st (w.args c)) ∧ s'.mem.nbuf = w.st.mem.nbuf ∧
      MemAfter w.st.mem s'.mem (In (place w.st ⟨w.name c.exclusive.1.buf, c.exclusive.1.off⟩) c.exclusive.2) ∧
      ∃ a' xs ys, SameResult w.st s' (w.args c) a a' ∧ CallReturns xs ys (untag w.st (w.args c)) a' ∧ ys.length ≤ c.exclusive.2 ∧ Reads s'.mem (place w.st ⟨w.name c.exclusive.1.buf, c.exclusive.1.off⟩) ys)
    (herr : ∀ s', r = .err s' → AfterCall w.st s' (loans w.st (w.args c)) ∧ s'.mem.nbuf = w.st.mem.nbuf ∧
      MemAfter w.st.mem s'.mem (In (place w.st ⟨w.name c.exclusive.1.buf, c.exclusive.1.off⟩) c.exclusive.2)) : Fine M.P w (some (w.name c.exclusive.1.buf)) (w.kept c keep r) := by
  cases r with
  | ub => exact (hu rfl).elim
  | panic => cases keep <;> trivial
  | err s' =>
    obtain ⟨h1, h2, h3⟩ := herr s' rfl
    cases keep <;> exact h.after hI h1 h3 h2
  | ok a s' =>
    obtain ⟨h1, h2, h3, a', xs, ys, h4, h5, h6, h7⟩ := hok a s' rfl
    obtain ⟨g1, g2⟩ := h.after hI h1 h3 h2
    cases keep with
    | none => exact ⟨g1, g2⟩
    | some k =>
      show Fine M.P w (some (w.name c.exclusive.1.buf)) (match returned c a with | some (p, n) => World.make { w with st := s' } k true true (w.ownerOf c.exclusive.1.buf) p n | none => .ok { w with st := s' })
      cases e : returned c a with
      | none => exact ⟨g1, g2⟩
      | some pn =>
        obtain ⟨p, n⟩ := pn
        obtain ⟨h8, h8', h9, h10⟩ := returned_ok h4 h5 (by rw [returned_args]; exact e)
        rw [plain_exclusive] at h9
        rw [args_exclusive] at h8
        exact h.keeps hI h1 g1 g2 h9 (by omega) h8 h8' ⟨ys, h10.symm, by rw [h9]; exact h7⟩

theorem call_fine (hI : Inv M.P w) {α : Type} {c : Call α} {keep : Option Nat} (h : w.CanCall M c keep) : Fine M.P w (some (w.name c.exclusive.1.buf)) (w.kept c keep ((w.args c).tree M.P w.st)) := by
  obtain ⟨hr, hr', hl, hb⟩ := h.borrows hI
  obtain ⟨xs, hxl, hx⟩ := h.input hI
  have ho := C93_call M (w.args c) w.st hr hI.sound hl hb
  obtain ⟨res, -, hc⟩ := C90_call M _ w.st.mem hr' hb hxl hx
  rw [plain_exclusive] at hc
  have hm : ∀ m', ((∃ r, ((untag w.st (w.args c)).prog M.P).run w.st.mem = .ok r m') ∨ ((untag w.st (w.args c)).prog M.P).run w.st.mem = .err m') → m'.nbuf = w.st.mem.nbuf ∧
      MemAfter w.st.mem m' (In (place w.st ⟨w.name c.exclusive.1.buf, c.exclusive.1.off⟩) c.exclusive.2) := fun m' hrun => by
    have hm := Prog.run_after (Call.fine M _ w.st.mem hr' hb).inside hrun
    rw [plain_exclusive] at hm
    exact ⟨(Uses.shape (Call.noalloc M.P (untag w.st (w.args c))) hrun).1, hm⟩
  unfold Obeys at ho
  refine h.fine hI (fun e => ?_) (fun a s' e => ?_) fun s' e => ?_
  · rw [e] at ho; exact ho
  · rw [e] at ho
    cases e' : ((untag w.st (w.args c)).prog M.P).run w.st.mem with
    | ok a' m' =>
      rw [e'] at ho hc
      obtain ⟨rfl, h1, h2⟩ := ho
      obtain ⟨ys, -, h3, h4, h5, -⟩ := hc
      obtain ⟨h6, h7⟩ := hm s'.mem (.inl ⟨a', e'⟩)
      exact ⟨h1, h6, h7, a', xs, ys, h2, h3, h4, h5⟩
    | err | panic | ub => rw [e'] at ho; exact ho.elim
  · rw [e] at ho
    cases e' : ((untag w.st (w.args c)).prog M.P).run w.st.mem with
    | err m' =>
      rw [e'] at ho
      obtain ⟨rfl, h1⟩ := ho
      obtain ⟨h6, h7⟩ := hm s'.mem (.inr e')
      exact ⟨h1, h6, h7⟩
    | ok | panic | ub => rw [e'] at ho; exact ho.elim

/-! ### Calls that allocate -/

theorem heap_args_shared {α : Type} (c : HeapCall α) : (w.argsHeap c).shared = ⟨⟨w.name c.shared.ptr.buf, c.shared.ptr.off⟩, c.shared.len⟩ := by cases c <;> rfl
theorem heap_args_vec {α : Type} (c : HeapCall α) : (w.argsHeap c).vec = c.vec.map fun v => { v with buf := w.name v.buf } := by cases c <;> rfl
theorem heap_shared {α : Type} (c : HeapCall α) : (untagHeap w.st (w.argsHeap c)).shared = ⟨place w.st ⟨w.name c.shared.ptr.buf, c.shared.ptr.off⟩, c.shared.len⟩ := by cases c <;> rfl
theorem heap_vec {α : Type} (c : HeapCall α) : (untagHeap w.st (w.argsHeap c)).vec = c.vec.map fun v => { v with buf := w.st.home (w.name v.buf) } := by cases c <;> rfl
theorem heap_owner {α : Type} (old : Option Owned) (c : HeapCall α) (r : α) : owner (w.argsHeap c) r = Spec.ownerOf (Client.result old c r) := by
  cases c <;> first | rfl | (dsimp only [World.argsHeap, untagHeap, owner, Client.result]; split <;> rfl)
theorem heap_result {α : Type} (s s' : State) (old : Option Owned) (c : HeapCall α) (r : α) :
    Client.result old (untagHeap s (w.argsHeap c)) (untagResult s' (w.argsHeap c) r) = Moves.move s'.home (Client.result old c r) := by
  cases c <;> first | rfl | (dsimp only [World.argsHeap, untagHeap, untagResult, Client.result]; split <;> rfl)
theorem heap_appends {α : Type} (s : State) (c : HeapCall α) : AppendsText (untagHeap s (w.argsHeap c)) ↔ AppendsText c := by cases c <;> rfl

/-- The variable that is appended to. -/
structure AppendsTo (w : World) (x : Nat) {α : Type} (c : HeapCall α) (v : RVec) (o : Owned) : Prop where
  buf : v.buf = x
  var : w.vars x = some o
  owner : Spec.ownerOf o = (⟨w.name x, 0⟩, v.cap)
  len : Client.len o = v.len
  text : ∀ r, IsText (Client.result (w.vars x) c r) → AppendsText c ∧ IsText o
  notLent : w.NotLent x
  other : w.st.home (w.name c.shared.ptr.buf) ≠ w.st.home (w.name x)

theorem heap_cases (hI : Inv M.P w) {x : Nat} {α : Type} {c : HeapCall α} (h : Legal M w (.heap x c)) : (c.vec = none → w.Unused x) ∧ ∀ v, c.vec = some v → ∃ o, AppendsTo w x c v o := by
  obtain ⟨-, hs, hvar⟩ := h
  refine ⟨fun e => by rw [e] at hvar; exact hvar, fun v hv => ?_⟩
  rw [hv] at hvar
  obtain ⟨h1, h2, h3, t, h4⟩ := hvar
  have hne : ∀ o, w.vars x = some o → w.st.home (w.name c.shared.ptr.buf) ≠ w.st.home (w.name x) := fun o ho e => by
    obtain ⟨o', g⟩ := Within.owner hI (Inits.within hI hs.1)
    have e2 := hI.apart _ _ _ _ g.var ho (by rw [← g.home, ← (hI.var_name ho).1]; exact e)
    rcases Inits.within hI hs.1 with ⟨o2, k1, -⟩ | ⟨ρ, k1, -⟩
    · rw [(hI.var_name k1).2.1] at e2; exact h2 e2
    · rw [(ref_name k1).2] at e2; exact h3 _ ρ k1 e2
  rcases h4 with h4 | ⟨h5, h4⟩
  · exact ⟨_, h1, h4, by rw [(hI.var_name h4).1]; rfl, rfl, fun r h => by rw [h4] at h; exact absurd h (Client.text_vec hv r), h3, hne _ h4⟩
  · exact ⟨_, h1, h4, by rw [(hI.var_name h4).1]; rfl, rfl, fun r _ => ⟨h5, trivial⟩, h3, hne _ h4⟩

theorem AppendsTo.name {x : Nat} {α : Type} {c : HeapCall α} {v : RVec} {o : Owned} (h : AppendsTo w x c v o) : w.name v.buf = (Spec.ownerOf o).1.buf := by rw [h.owner, h.buf]

/-- What a variable that can be appended to holds, as a vector. -/
theorem AppendsTo.isVec (hI : Inv M.P w) {x : Nat} {α : Type} {c : HeapCall α} {v : RVec} {o : Owned} (h : AppendsTo w x c v o) {ys : List Byte} (hy : ys.length = Client.len o)
    (hr : Reads w.st.mem (place w.st (Spec.ownerOf o).1) ys) : IsVec w.st.mem { v with buf := w.st.home (w.name v.buf) } ys := by
  have hO := (hI.valid _ o h.var).owns
  have he := hI.exists_ h.var
  have hl := h.len
  rw [h.owner, ← h.buf] at hr hO he
  exact ⟨he, hO.size.symm, by dsimp only; omega, hr⟩

/-- What safe Rust guarantees is what the theorems about the calls ask for. -/
theorem heap_borrows (hI : Inv M.P w) {x : Nat} {α : Type} {c : HeapCall α} (h : Legal M w (.heap x c)) :
    (untagHeap w.st (w.argsHeap c)).RunsOn M ∧ (untagHeap w.st (w.argsHeap c)).Borrows M.P w.st.mem ∧ ObeysHeap M.P w.st (w.argsHeap c) (((untagHeap w.st (w.argsHeap c)).prog M.P).run w.st.mem) := by
  obtain ⟨-, hvar⟩ := heap_cases hI h
  obtain ⟨hr, hs, -⟩ := h
  have hr' : (w.argsHeap c).RunsOn M := by cases c <;> exact hr
  have hr'' : (untagHeap w.st (w.argsHeap c)).RunsOn M := by cases c <;> exact hr
  obtain ⟨os, g⟩ := Within.owner hI (Inits.within hI hs.1)
  have hmax := g.max; have hwi := g.within
  have hl : LendsHeap w.st (w.argsHeap c) := by
    refine ⟨?_, fun v' hv' => ?_⟩
    · rw [heap_args_shared]; exact CanRead.readable hI hs
    · rw [heap_args_vec] at hv'
      obtain ⟨v, hv, rfl⟩ := Option.map_eq_some_iff.1 hv'
      obtain ⟨o, ho⟩ := hvar v hv
      have hO := (hI.valid _ o ho.var).owns
      rw [ho.owner] at hO
      dsimp only
      rw [ho.buf]
      exact hO
  have hb : (untagHeap w.st (w.argsHeap c)).Borrows M.P w.st.mem := by
    refine ⟨by rw [heap_shared]; exact Inits.reads hI hs.1, ?_, by rw [heap_shared]; dsimp only; omega, fun v' hv' => ?_⟩
    · rw [heap_shared]
      show w.st.home (w.name _) < _
      rw [g.home]; exact hI.exists_ g.var
    · rw [heap_vec] at hv'
      obtain ⟨v, hv, rfl⟩ := Option.map_eq_some_iff.1 hv'
      obtain ⟨o, ho⟩ := hvar v hv
      obtain ⟨ys, h6, h7, -⟩ := (hI.valid _ o ho.var).content
      refine ⟨⟨ys, ho.isVec hI h6 h7⟩, ?_, ?_⟩
      · rw [heap_shared]; dsimp only [place]
        rw [ho.buf]; exact ho.other
      · have := (hI.valid _ o ho.var).max
        rw [ho.owner] at this; exact this
  exact ⟨hr'', hb, C94_call M (w.argsHeap c) w.st hr' hI.sound hl hb⟩

theorem heap_fine (hI : Inv M.P w) {x : Nat} {α : Type} {c : HeapCall α} (hlegal : Legal M w (.heap x c)) : Fine M.P w T (exec M.P w (.heap x c)) := by
  obtain ⟨hr'', hb, h⟩ := heap_borrows hI hlegal
  obtain ⟨hnone, hvar⟩ := heap_cases hI hlegal
  have hs := hlegal.2.1
  have evec := heap_vec (w := w) c
  have hN : w.NotLent x ∧ w.refs x = none := by
    cases e : c.vec with
    | none => exact ⟨Unused.notLent hI (hnone e), (hnone e).2⟩
    | some v => obtain ⟨o, ho⟩ := hvar v e; exact ⟨ho.notLent, (hI.var_name ho.var).2.2⟩
  -- what the loans are
  have hloan : ∀ b i, b < w.st.mem.nbuf → (∀ o, w.vars x = some o → w.st.home (Spec.ownerOf o).1.buf ≠ b) → Spares w b i (heapLoans w.st (w.argsHeap c) b i) := fun b i h1 h2 => by
    unfold heapLoans
    rw [heap_args_shared, heap_args_vec]
    dsimp only
    split
    · rename_i hin; exact (CanRead.permits hI hs hin).spares hI
    · cases hv : c.vec with
      | none => exact fun _ _ _ _ _ => ⟨trivial, fun _ _ _ _ => trivial⟩
      | some v =>
        obtain ⟨o, ho⟩ := hvar v hv
        dsimp only [Option.map]
        rw [if_neg fun h => h2 o ho.var (by rw [h.1, ho.name])]
        exact fun _ _ _ _ _ => ⟨trivial, fun _ _ _ _ => trivial⟩
  have hmem : ∀ s' : State, ((∃ r, ((untagHeap w.st (w.argsHeap c)).prog M.P).run w.st.mem = .ok r s'.mem) ∨ ((untagHeap w.st (w.argsHeap c)).prog M.P).run w.st.mem = .err s'.mem) →
      MemAfter w.st.mem s'.mem fun b _ => w.st.mem.nbuf ≤ b ∨ ∃ o, w.vars x = some o ∧ b = w.st.home (Spec.ownerOf o).1.buf := fun s' h => by
    refine (Prog.run_after ((untagHeap w.st (w.argsHeap c)).inside M w.st.mem hr'' hb) h).mono fun b i h => h.imp id fun ⟨v', h1, h2⟩ => ?_
    rw [evec] at h1
    obtain ⟨v, hv, rfl⟩ := Option.map_eq_some_iff.1 h1
    obtain ⟨o, ho⟩ := hvar v hv
    refine ⟨o, ho.var, ?_⟩
    dsimp only at h2
    rw [h2, ho.name]
  show Fine M.P w T (w.after ((w.argsHeap c).tree M.P w.st) fun r => w.set x (some (Client.result (w.vars x) c r)))
  unfold ObeysHeap at h
  split at h
  · rename_i r s' r' m e e'
    rw [e]
    obtain ⟨rfl, rfl, hA, hO, hK, hF, hW⟩ := h
    rw [heap_owner (w.vars x)] at hO hF hW
    have hm := hmem s' (.inl ⟨_, e'⟩)
    obtain ⟨xs, hl, hx⟩ := hb.1
    have hc := HeapCall.content M _ w.st.mem hr'' hb hl hx e' (w.vars x)
    have hhome : ∀ o, w.vars x = some o → s'.home (Spec.ownerOf o).1.buf = w.st.home (Spec.ownerOf o).1.buf := fun o ho => hA.home _ (hI.tag ho)
    have hwhere : w.st.mem.nbuf ≤ s'.home (Spec.ownerOf (Client.result (w.vars x) c r)).1.buf ∨
        ∃ v, c.vec = some v ∧ ∃ o, w.vars x = some o ∧ s'.home (Spec.ownerOf (Client.result (w.vars x) c r)).1.buf = w.st.home (Spec.ownerOf o).1.buf := by
      rcases hW with ⟨h1, -⟩ | ⟨v', h1, h2⟩
      · exact .inl h1
      · rw [heap_args_vec] at h1
        obtain ⟨v, hv, rfl⟩ := Option.map_eq_some_iff.1 h1
        obtain ⟨o, ho⟩ := hvar v hv
        refine .inr ⟨v, hv, o, ho.var, ?_⟩
        rw [h2]
        dsimp only
        rw [ho.name]
        exact hhome o ho.var
    have hex : s'.home (Spec.ownerOf (Client.result (w.vars x) c r)).1.buf < s'.mem.nbuf := hA.sound.alloc _ hO.mutable.1
    refine hI.assign hN.1 hN.2 (some (Client.result (w.vars x) c r)) hA hm (fun b h1 h2 => hK b h1 fun v' hv' e => ?_) hloan (fun _ _ h => h) (fun o' eo => ?_) (fun b h1 h2 h3 => ?_) (fun o ho h1 => ?_)
    · rw [heap_args_vec] at hv'
      obtain ⟨v, hv, rfl⟩ := Option.map_eq_some_iff.1 hv'
      obtain ⟨o, ho⟩ := hvar v hv
      exact h2 o ho.var (by rw [e]; dsimp only; rw [ho.name])
    · cases eo
      refine ⟨⟨hO, ?_, ?_⟩, hwhere.imp id fun ⟨v, hv, o, h1, h2⟩ => ⟨o, h1, h2⟩⟩
      · rw [← hO.size]
        rcases hwhere with h1 | ⟨v, hv, o, h1, h2⟩
        · exact HeapCall.max_size M _ w.st.mem hr'' hb (.inl ⟨_, e'⟩) h1 hex
        · have hV := hI.valid _ o h1
          rw [h2, hm.size _ (hI.exists_ h1), hV.owns.size]; exact hV.max
      · obtain ⟨q1, q2, q3⟩ := Client.owner_rvec (Client.result (w.vars x) c r)
        have hp : place s' (Spec.ownerOf (Client.result (w.vars x) c r)).1 = ⟨s'.home (Client.result (w.vars x) c r).rvec.buf, 0⟩ := by
          unfold place; rw [q1, hO.start]
        rw [hp, q3]
        unfold HeapCall.Content at hc
        rw [evec, heap_result, Client.rvec_move] at hc
        cases hv : c.vec with
        | none =>
          rw [hv] at hc
          obtain ⟨ys, -, ⟨-, -, -, h1, h2⟩, -, h3⟩ := hc
          exact ⟨ys, h1.symm, h2, fun h => h3 ((Client.text_move _ _).2 h)⟩
        | some v =>
          rw [hv] at hc
          obtain ⟨o, ho⟩ := hvar v hv
          obtain ⟨prev, q4, q5, q6⟩ := (hI.valid _ o ho.var).content
          obtain ⟨res, -, -, ⟨-, -, h4, h5⟩, h6⟩ := hc prev (ho.isVec hI q4 q5)
          refine ⟨prev ++ res.getD [], h4.symm, h5, fun h => ?_⟩
          obtain ⟨h9, h10⟩ := ho.text r h
          exact (q6 h10).append (h6 ((heap_appends _ _).2 h9))
    · exact hF b h1 h2 (Ne.symm (h3 _ rfl))
    · cases hv : c.vec with
      | none => rw [(hnone hv).1] at ho; cases ho
      | some v =>
        obtain ⟨o2, ho2⟩ := hvar v hv
        have eo := ho2.var
        rw [ho] at eo; cases eo
        rcases hW with ⟨-, h2⟩ | ⟨v', h2, h3⟩
        · have := h2 { v with buf := w.name v.buf } (by rw [heap_args_vec, hv]; rfl)
          dsimp only at this
          rwa [ho2.name] at this
        · exfalso
          rw [heap_args_vec, hv] at h2
          cases h2
          refine h1 _ rfl ?_
          rw [h3]
          dsimp only
          rw [ho2.name]
          exact hhome o ho
  · rename_i s' m e e'
    rw [e]
    obtain ⟨rfl, hA, hv, hF⟩ := h
    rw [heap_args_vec] at hv
    have hv : c.vec = none := Option.map_eq_none_iff.1 hv
    have hm := hmem s' (.inr e')
    have : w.vars = w.set x none := by
      funext y
      unfold World.set
      split
      · rename_i hy; rw [hy, (hnone hv).1]
      · rfl
    have key := hI.assign (T := T) hN.1 hN.2 none hA.heap hm (fun b h1 _ => hA.kept b h1) hloan (fun _ _ h => h) (fun _ eo => nomatch eo) (fun b h1 h2 _ => hF b h1 h2) (fun o ho => ?_)
    · rw [← this] at key
      exact key
    · rw [(hnone hv).1] at ho; cases ho
  · rename_i e _; rw [e]; trivial
  · exact h.elim

/-- Every step. -/
theorem step_fine (hI : Inv M.P w) {op : Op} (h : Legal M w op) : Fine M.P w ((through op).map w.name) (exec M.P w op) := by
  cases op with
  | new x text bs cap => exact new_fine hI h.1 h.2.1 h.2.2.1 h.2.2.2
  | move x y =>
    obtain ⟨⟨o, h1⟩, h2, h3⟩ := h
    exact move_fine hI h1 h2 h3
  | truncate x n =>
    obtain ⟨⟨v, h1⟩, h2⟩ := h
    exact truncate_fine hI h1 h2
  | intoBytes x =>
    obtain ⟨⟨o, h1⟩, h2⟩ := h
    exact intoBytes_fine hI h1 h2
  | drop x =>
    obtain ⟨⟨o, h1⟩, h2⟩ := h
    exact (drop_fine hI h1 h2).1
  | borrow k excl init p n => exact borrow_fine hI h.1 h.2.1 h.2.2.1 h.2.2.2
  | forget k => exact forget_fine hI k
  | read p n => exact read_fine hI h
  | write p bs => exact write_fine hI h
  | call c keep => exact call_fine hI h
  | heap x c => exact heap_fine hI h

end Simd.Tree.Use
