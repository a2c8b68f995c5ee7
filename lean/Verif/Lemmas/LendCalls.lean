import Verif.Lemmas.LendExt
/-
Calls keep the references of a program valid, and so do slices that they return.
-/
namespace Simd.Lend
open Borrow Spec Client

variable {M : Machine} {P : Plat} {w : World} {T : Option Nat}

theorem Frozen.trans {w w1 w2 : World} (h : Frozen w w1 T) (h' : Frozen w1 w2 T) (hr : ∀ r ρ, w.refs r = some ρ → w2.refs r = some ρ → w1.refs r = some ρ) : Frozen w w2 T :=
  fun r ρ h1 h2 h3 xs hl hx => h' r ρ (hr r ρ h1 h3) h2 h3 xs hl (h r ρ h1 h2 (hr r ρ h1 h3) xs hl hx)

theorem args_shared {α : Type} (c : Call α) : (w.args c).shared = (⟨w.name c.shared.1.buf, c.shared.1.off⟩, c.shared.2) := untag_shared _ c
theorem args_exclusive {α : Type} (c : Call α) : (w.args c).exclusive = (⟨w.name c.exclusive.1.buf, c.exclusive.1.off⟩, c.exclusive.2) := untag_exclusive _ c
theorem plain_shared {α : Type} (c : Call α) : (untag w.st (w.args c)).shared = (place w.st ⟨w.name c.shared.1.buf, c.shared.1.off⟩, c.shared.2) := by rw [untag_shared, args_shared]
theorem plain_exclusive {α : Type} (c : Call α) : (untag w.st (w.args c)).exclusive = (place w.st ⟨w.name c.exclusive.1.buf, c.exclusive.1.off⟩, c.exclusive.2) := by rw [untag_exclusive, args_exclusive]
theorem plain_input {α : Type} (c : Call α) : input (untag w.st (w.args c)) = (place w.st ⟨w.name (input c).1.buf, (input c).1.off⟩, (input c).2) := by cases c <;> rfl
theorem input_cases {α : Type} (c : Call α) : InPlace c ∧ input c = c.exclusive ∨ input c = c.shared := by
  cases c <;> first | exact .inr rfl | exact .inl ⟨trivial, rfl⟩
theorem returned_args {α : Type} (c : Call α) (a : α) : returned (w.args c) a = returned c a := by cases c <;> rfl

/-- What safe Rust guarantees is what the theorems about the calls ask for. -/
theorem World.CanCall.borrows (hI : RInv M.P w) {α : Type} {c : Call α} {keep : Option Nat} (h : w.CanCall M c keep) :
    (w.args c).RunsOn M ∧ (untag w.st (w.args c)).RunsOn M ∧ Lends w.st (w.args c) ∧ (untag w.st (w.args c)).Borrows M.P w.st.mem := by
  have hs := CanRead.source hI h.shared
  obtain ⟨o, h1, h2, h3, h4, h5, h6, -⟩ := Within.owner hI (CanWrite.within h.excl)
  refine ⟨?_, ?_, ⟨?_, ?_, ?_, ?_⟩, ?_⟩
  · have := h.runs; cases c <;> exact this
  · have := h.runs; cases c <;> exact this
  · rw [args_shared]; exact hs.tag
  · rw [args_exclusive]; exact h2
  · rw [args_shared]; exact hs.readable
  · rw [args_exclusive]; exact CanWrite.mutable hI h.excl
  · refine ⟨by rw [plain_shared]; exact hs.content, ?_, by rw [plain_shared]; exact hs.max, by rw [plain_exclusive]; dsimp only; omega, ?_⟩
    · rw [plain_exclusive]
      show c.exclusive.1.off + c.exclusive.2 ≤ w.st.mem.size (w.st.home _)
      rw [h3, h5.size]; exact h4
    · have hi := h.inplace
      have ha := h.apart
      cases c <;> first | exact trivial | exact Inits.reads hI (hi trivial) | exact ha

/-- The input of a call is initialised. -/
theorem World.CanCall.input (hI : RInv M.P w) {α : Type} {c : Call α} {keep : Option Nat} (h : w.CanCall M c keep) :
    ∃ xs, xs.length = (input (untag w.st (w.args c))).2 ∧ Reads w.st.mem (input (untag w.st (w.args c))).1 xs := by
  rw [plain_input]
  refine Inits.reads (p := (Spec.input c).1) hI ?_
  rcases input_cases c with ⟨hp, e⟩ | e <;> rw [e]
  · exact h.inplace hp
  · exact h.shared.1

/-- After a call. -/
theorem World.CanCall.after (hI : RInv M.P w) {α : Type} {c : Call α} {keep : Option Nat} (h : w.CanCall M c keep) {s' : State} (hA : AfterCall w.st s' (loans w.st (w.args c)))
    (hm : MemAfter w.st.mem s'.mem (In (place w.st ⟨w.name c.exclusive.1.buf, c.exclusive.1.off⟩) c.exclusive.2)) (hn : s'.mem.nbuf = w.st.mem.nbuf) :
    RInv M.P ⟨⟨w.vars, s'⟩, w.refs⟩ ∧ Frozen w ⟨⟨w.vars, s'⟩, w.refs⟩ (some (w.name c.exclusive.1.buf)) := by
  refine hI.permitted hA hm hn (fun b i => ?_) fun b i hi => ⟨_, rfl, CanWrite.permits hI h.excl hi⟩
  unfold loans
  rw [args_shared, args_exclusive]
  dsimp only
  split
  · rename_i hi; exact CanRead.permits hI h.shared hi
  · split
    · rename_i hi; exact CanWrite.permits hI h.excl hi
    · trivial

/-- A slice that a call returned is kept. -/
theorem World.CanCall.keeps (hI : RInv M.P w) {α : Type} {c : Call α} {k : Nat} (h : w.CanCall M c (some k)) {s' : State} (hA : AfterCall w.st s' (loans w.st (w.args c)))
    (hI' : RInv M.P ⟨⟨w.vars, s'⟩, w.refs⟩) (hF : Frozen w ⟨⟨w.vars, s'⟩, w.refs⟩ T) {p : Ptr} {n : Nat} (hp : place s' p = place w.st ⟨w.name c.exclusive.1.buf, c.exclusive.1.off⟩)
    (hn : n ≤ c.exclusive.2) (ht : OnTop s' .unique p n) (hc : ∃ xs, xs.length = n ∧ Reads s'.mem (place s' p) xs) :
    Fine M.P w T (World.make { w with st := s' } k true true (w.ownerOf c.exclusive.1.buf) p n) := by
  obtain ⟨o, h1, h2, h3, h4, h5, h6, -⟩ := Within.owner hI (CanWrite.within h.excl)
  have hk := h.keep k rfl
  have hoff : p.off = c.exclusive.1.off := by have := congrArg (fun q : Ptr => q.off) hp; exact this
  have hbuf : s'.home p.buf = w.st.home (w.name c.exclusive.1.buf) := by have := congrArg (fun q : Ptr => q.buf) hp; exact this
  have hin : ∀ b i, In (place s' p) n b i → In (place w.st ⟨w.name c.exclusive.1.buf, c.exclusive.1.off⟩) c.exclusive.2 b i := fun b i hi => by
    rw [hp] at hi
    exact ⟨hi.1, hi.2.1, by have := hi.2.2; omega⟩
  have key := push_fine (T := T) (w := ⟨⟨w.vars, s'⟩, w.refs⟩) hI' (k := k) hk (x := w.ownerOf c.exclusive.1.buf) (o := o) h1 (excl := true) (init := true) (p := p) (n := n)
    (by show s'.home p.buf = s'.home _; rw [hbuf, h3, hA.home _ h5.tag]) (by omega) (fun _ h' => by have := CanWrite.not_text hI h.excl h1 h'; omega) (fun _ => hc) (fun b i hi => ?_) (fun _ b i hi rest e => ?_)
    nofun (fun _ r ρ b i hr hi hc' => ?_)
  · revert key
    cases World.make { w with st := s' } k true true (w.ownerOf c.exclusive.1.buf) p n with
    | ok w2 => exact fun key => ⟨key.1, hF.trans key.2 fun r ρ hr _ => hr⟩
    | panic => exact fun _ => trivial
    | ub => exact id
  · obtain ⟨rest, e⟩ := ht b i hi
    rw [if_pos rfl, Kind.apply, show (s'.stack b i) = _ from e, Stack.write_new]; rfl
  · obtain ⟨rest', e'⟩ := ht b i hi
    replace e : (s'.stack b i).write p.buf = some rest := e
    rw [e', Stack.write_new, ← e'] at e
    cases e
    exact hI'.facts b i
  · obtain ⟨o', -, h7⟩ := hI.refs r ρ hr
    exact (CanWrite.permits hI h.excl (hin b i hi)).no_shared hI hr ⟨hc'.1.trans (hA.home _ h7.tag), hc'.2⟩

/-- The slice that a call returns. -/
theorem returned_ok (s : State) {s' : State} {α : Type} {c : Call α} {r r' : α} (h : SameResult s' c r r') {xs ys : List Byte} (h2 : CallReturns xs ys (untag s c) r') {p : Ptr} {n : Nat} (e : returned c r = some (p, n)) :
    OnTop s' .unique p n ∧ place s' p = (untag s c).exclusive.1 ∧ n = ys.length := by
  cases c <;> first
    | (cases e; done)
    | (cases e
       obtain ⟨h, -, h3⟩ := h
       rw [Nat.one_mul] at h3
       replace h2 := h.symm.trans h2
       exact ⟨h3, congrArg Slice.ptr h2, congrArg Slice.len h2⟩)
    | (cases e
       obtain ⟨h, -, h3⟩ := h
       rw [h] at h2
       exact ⟨h3, h2.1, h2.2⟩)

/-- A call that ends like the program without borrow stacks, with what `CallMeans` says. -/
theorem World.CanCall.fine (hI : RInv M.P w) {α : Type} {c : Call α} {keep : Option Nat} (h : w.CanCall M c keep) {r : Result α} (hu : r ≠ .ub)
    (hok : ∀ a s', r = .ok a s' → AfterCall w.st s' (loans w.st (w.args c)) ∧ s'.mem.nbuf = w.st.mem.nbuf ∧
      MemAfter w.st.mem s'.mem (In (place w.st ⟨w.name c.exclusive.1.buf, c.exclusive.1.off⟩) c.exclusive.2) ∧
      ∃ a' xs ys, SameResult s' (w.args c) a a' ∧ CallReturns xs ys (untag w.st (w.args c)) a' ∧ ys.length ≤ c.exclusive.2 ∧ Reads s'.mem (place w.st ⟨w.name c.exclusive.1.buf, c.exclusive.1.off⟩) ys)
    (herr : ∀ s', r = .err s' → AfterCall w.st s' (loans w.st (w.args c)) ∧ s'.mem.nbuf = w.st.mem.nbuf ∧
      MemAfter w.st.mem s'.mem (In (place w.st ⟨w.name c.exclusive.1.buf, c.exclusive.1.off⟩) c.exclusive.2)) : Fine M.P w (some (w.name c.exclusive.1.buf)) (w.kept c keep r) := by
  cases r with
  | ub => exact (hu rfl).elim
  | panic => cases keep <;> trivial
  | err s' =>
    obtain ⟨h1, h2, h3⟩ := herr s' rfl
    cases keep <;> exact h.after hI h1 h3 h2
  | ok a s' =>
    obtain ⟨h1, h2, h3, a', xs, ys, h4, h5, h6, h7⟩ := hok a s' rfl
    obtain ⟨g1, g2⟩ := h.after hI h1 h3 h2
    cases keep with
    | none => exact ⟨g1, g2⟩
    | some k =>
      show Fine M.P w (some (w.name c.exclusive.1.buf)) (match returned c a with | some (p, n) => World.make { w with st := s' } k true true (w.ownerOf c.exclusive.1.buf) p n | none => .ok { w with st := s' })
      cases e : returned c a with
      | none => exact ⟨g1, g2⟩
      | some pn =>
        obtain ⟨p, n⟩ := pn
        obtain ⟨h8, h9, h10⟩ := returned_ok w.st h4 h5 (by rw [returned_args]; exact e)
        rw [plain_exclusive] at h9
        exact h.keeps hI h1 g1 g2 h9 (by omega) h8 ⟨ys, h10.symm, by rw [h9]; exact h7⟩

theorem call_fine (hI : RInv M.P w) {α : Type} {c : Call α} {keep : Option Nat} (h : w.CanCall M c keep) : Fine M.P w (some (w.name c.exclusive.1.buf)) (w.kept c keep ((w.args c).borrow M.P w.st)) := by
  obtain ⟨hr, hr', hl, hb⟩ := h.borrows hI
  obtain ⟨xs, hxl, hx⟩ := h.input hI
  have ho := C85_call M (w.args c) w.st hr hI.base.sound hl hb
  obtain ⟨res, -, hc⟩ := C90_call M _ w.st.mem hr' hb hxl hx
  rw [plain_exclusive] at hc
  have hm : ∀ m', ((∃ r, ((untag w.st (w.args c)).prog M.P).run w.st.mem = .ok r m') ∨ ((untag w.st (w.args c)).prog M.P).run w.st.mem = .err m') → m'.nbuf = w.st.mem.nbuf ∧
      MemAfter w.st.mem m' (In (place w.st ⟨w.name c.exclusive.1.buf, c.exclusive.1.off⟩) c.exclusive.2) := fun m' hrun => by
    have hm := Prog.run_after (Call.fine M _ w.st.mem hr' hb).inside hrun
    rw [plain_exclusive] at hm
    exact ⟨(Uses.shape (Call.noalloc M.P (untag w.st (w.args c))) hrun).1, hm⟩
  unfold Obeys at ho
  refine h.fine hI (fun e => ?_) (fun a s' e => ?_) fun s' e => ?_
  · rw [e] at ho; exact ho
  · rw [e] at ho
    cases e' : ((untag w.st (w.args c)).prog M.P).run w.st.mem with
    | ok a' m' =>
      rw [e'] at ho hc
      obtain ⟨rfl, h1, h2⟩ := ho
      obtain ⟨ys, -, h3, h4, h5, -⟩ := hc
      obtain ⟨h6, h7⟩ := hm s'.mem (.inl ⟨a', e'⟩)
      exact ⟨h1, h6, h7, a', xs, ys, h2, h3, h4, h5⟩
    | err | panic | ub => rw [e'] at ho; exact ho.elim
  · rw [e] at ho
    cases e' : ((untag w.st (w.args c)).prog M.P).run w.st.mem with
    | err m' =>
      rw [e'] at ho
      obtain ⟨rfl, h1⟩ := ho
      obtain ⟨h6, h7⟩ := hm s'.mem (.inr e')
      exact ⟨h1, h6, h7⟩
    | ok | panic | ub => rw [e'] at ho; exact ho.elim

/-! ### `par_encode` -/

open Simd.Base64 in
/-- What `par_encode` returns is at the start of the destination, and it changes nothing else; unless the destination is too short, or the number of threads too large, it returns. -/
theorem par_value (M : Machine) (k : Nat) (i : Option Isa) (config : Config) (p q : Ptr) (d : Nat) (m : Mem) {n : Nat} {xs : List Byte} (hn : n = xs.length) (hx : Reads m p xs) (hr : (Call.base64Encode i config ⟨p, n⟩ ⟨q, d⟩).RunsOn M)
    (hb : (Call.base64Encode i config ⟨p, n⟩ ⟨q, d⟩).Borrows M.P m) {o : Out Slice} (h : Fork.Outcome (Simd.Base64.par_encode M.P k i config ⟨p, n⟩ ⟨q, d⟩) m o) :
    (∀ r m', o = .ok r m' → m'.nbuf = m.nbuf ∧ MemAfter m m' (In q d) ∧
      ∃ ys, r = ⟨q, ys.length⟩ ∧ ys.length ≤ d ∧ Reads m' q ys ∧ CallMeans xs d (some ys) (.base64Encode i config ⟨p, n⟩ ⟨q, d⟩)) ∧
    (∀ m', o = .err m' → m'.nbuf = m.nbuf ∧ MemAfter m m' (In q d) ∧ CallMeans xs d none (.base64Encode i config ⟨p, n⟩ ⟨q, d⟩)) ∧
    (o = .panic → M.P.usizeMax < k * 4096 ∨ CallMeans xs d none (.base64Encode i config ⟨p, n⟩ ⟨q, d⟩)) := by
  subst hn
  obtain ⟨-, hw, hP, hP', ho⟩ := id hb
  obtain ⟨hi, url, pad, hv⟩ := id hr
  have hi := Dispatch.Runs.ne_sse2 hi (by decide)
  have hP : xs.length ≤ M.P.isizeMax := hP
  have ho : NoOverlap p xs.length q d := ho
  by_cases hk : k * 4096 ≤ M.P.usizeMax
  · by_cases hd : (Spec.base64 url pad xs).length ≤ d
    · obtain ⟨m', hw', ho'⟩ := C62_par_encode M.P hi hv m p q xs d k hx hw ho hk hP hd
      rw [(ho' o).1 h]
      refine ⟨fun r m'' e => ?_, nofun, nofun⟩
      injection e with e1 e2
      subst e1 e2
      refine ⟨hw'.1, ?_, _, rfl, hd, ⟨?_, hw'.2.2.1⟩, url, pad, hv, (fits_pos hd).symm⟩
      · rw [hw'.eq]
        exact (MemAfter.write ..).mono fun b i h => ⟨h.1, h.2.1, by have := h.2.2; omega⟩
      · rw [hw'.2.1]
        have : q.off + d ≤ m.size q.buf := hw
        omega
    · have hm : CallMeans xs d none (.base64Encode i config ⟨p, xs.length⟩ ⟨q, d⟩) := ⟨url, pad, hv, (fits_neg hd).symm⟩
      have e := (C62_short M.P hi hv m p q xs d k hk hP (by omega) o).1 h
      split at e
      · rw [e]; exact ⟨nofun, nofun, fun _ => .inr hm⟩
      · rw [e]; exact ⟨nofun, fun m' e => by injection e with e; subst e; exact ⟨rfl, .refl _ _, hm⟩, nofun⟩
  · have e1 : M.P.mulU k 4096 = none := if_neg hk
    rw [(fork_panic (by unfold Simd.Base64.par_encode; rw [e1]; rfl) o).1 h]
    exact ⟨nofun, nofun, fun _ => .inl (by omega)⟩

theorem par_fine (hI : RInv M.P w) {threads : Nat} {i : Option Isa} {config : Base64.Config} {src dst : Slice} {keep : Option Nat} (h : w.CanCall M (.base64Encode i config src dst) keep) :
    (∀ r, Split.Outcome (Borrow.Base64.par_encode M.P threads i config ⟨⟨w.name src.ptr.buf, src.ptr.off⟩, src.len⟩ ⟨⟨w.name dst.ptr.buf, dst.ptr.off⟩, dst.len⟩) w.st r →
      Fine M.P w (some (w.name dst.ptr.buf)) (w.kept (.base64Encode i config src dst) keep r)) ∧
    ∃ r, Split.Outcome (Borrow.Base64.par_encode M.P threads i config ⟨⟨w.name src.ptr.buf, src.ptr.off⟩, src.len⟩ ⟨⟨w.name dst.ptr.buf, dst.ptr.off⟩, dst.len⟩) w.st r := by
  obtain ⟨hr, hr', hl, hb⟩ := h.borrows hI
  obtain ⟨o, h1, h2, h3⟩ := C91_par_encode M threads i config _ _ w.st hr hI.base.sound hl hb
  refine ⟨fun r hrun => ?_, h3⟩
  obtain ⟨xs, hxl, hx⟩ := h.input hI
  have hv := par_value M threads i config _ _ _ w.st.mem hxl.symm hx hr' hb ((h1 o).2 rfl)
  have hs := h2 r hrun
  refine h.fine hI (fun e => ?_) (fun a s' e => ?_) fun s' e => ?_
  · subst e; exact hs
  · subst e
    cases o with
    | ok a' m' =>
      obtain ⟨rfl, g1, g2⟩ := hs
      obtain ⟨g3, g4, ys, g5, g6, g7, -⟩ := hv.1 a' _ rfl
      exact ⟨g1, g3, g4, a', [], ys, g2, g5, g6, g7⟩
    | err | panic | ub => exact hs.elim
  · subst e
    cases o with
    | err m' =>
      obtain ⟨rfl, g1⟩ := hs
      obtain ⟨g3, g4, -⟩ := hv.2.1 _ rfl
      exact ⟨g1, g3, g4⟩
    | ok | panic | ub => exact hs.elim

/-! ### Steps that change variables -/

/-- The references after a step that changes variable `x` only. -/
theorem heap_other (hI : RInv P w) {x : Nat} (hx : w.NotLent x) (hu : w.refs x = none) {p : Ptr} {n : Nat} (hp : ∀ b i, In (place w.st p) n b i → Permits w b i (.shared p.buf)) {e : Client.End}
    (h : FineHeap P w.toWorld x p n e) : Fine P w T (w.owned e) := by
  cases e with
  | panic => trivial
  | ub => exact h
  | ok w' =>
    obtain ⟨h1, -, ⟨G, hA, hm, hG⟩, h4⟩ := h
    have hb : ∀ r ρ b i, w.refs r = some ρ → w.Covers ρ b i → b < w.st.mem.nbuf ∧ ∀ o, w.vars x = some o → w.st.home (Spec.ownerOf o).1.buf ≠ b := fun r ρ b i hr hc => by
      obtain ⟨o, h5, h6⟩ := hI.refs r ρ hr
      have e : b = w.st.home (Spec.ownerOf o).1.buf := hc.1.trans h6.home
      refine ⟨by rw [e]; exact (hI.base.valid _ o h5).owns.exists_, fun o' h7 h8 => hx r ρ hr (hI.base.apart _ _ _ _ h5 h7 (by rw [h8, e]))⟩
    refine hI.other h1 (fun r ρ hr => ?_) hA hm (fun r ρ b i hr hc => Permits.facts hI hA ?_) fun r ρ b i hr _ hc hw => ?_
    · refine ⟨h4 _ (hx r ρ hr), ?_⟩
      rw [h4 r fun e => by rw [e, hu] at hr; cases hr]
      exact hI.names r ρ hr
    · obtain ⟨h5, h6⟩ := hb r ρ b i hr hc
      rcases hG b i h5 h6 with e | ⟨hin, e⟩ <;> rw [e]
      · trivial
      · exact hp b i hin
    · obtain ⟨h5, h6⟩ := hb r ρ b i hr hc
      rcases hw with h7 | ⟨o, h7, h8⟩
      · omega
      · exact h6 o h7 h8.symm

theorem stays_refl (v : Client.World) {vars : Nat → Option Owned} (x : Nat) : Stays v ⟨vars, v.st⟩ x ⟨0, 0⟩ 0 :=
  ⟨fun _ _ => .none, ⟨Nat.le_refl _, rfl, fun _ _ => rfl, fun _ _ => .inl rfl⟩, .refl _ _, fun _ _ _ _ => .inl rfl⟩

theorem none_permits (b i : Nat) (h : In (place w.st ⟨0, 0⟩) 0 b i) : Permits w b i (.shared 0) := by
  have := h.2; omega

/-- A step that changes what a variable is, and nothing in memory. -/
theorem recast_other (hI : RInv P w) {x : Nat} {o : Owned} (ho : w.vars x = some o) (hx : w.NotLent x) {no : Option Owned} (h : Client.Fine P w.toWorld (· = x) (.ok ⟨w.set x no, w.st⟩)) :
    Fine P w T (w.owned (.ok ⟨w.set x no, w.st⟩)) :=
  heap_other hI hx (hI.var_name ho).2.2 none_permits ⟨h.1, h.2, stays_refl _ _, fun _ hy => if_neg hy⟩

theorem Unused.notLent (hI : RInv P w) {x : Nat} (h : w.Unused x) : w.NotLent x := fun r ρ hr e => by
  obtain ⟨o, h1, -⟩ := hI.refs r ρ hr
  rw [e, h.1] at h1; cases h1

theorem move_other (hI : RInv M.P w) {x y : Nat} (hx : w.NotLent x) (hy : w.Unused y) : Fine M.P w T (w.owned (Client.exec M.P w.toWorld (.move x y))) := by
  have h := (move_fine (M := M) hI.base (x := x) hy.1).1
  refine hI.other h (G := fun _ _ => .none) (fun r ρ hr => ?_) ⟨Nat.le_refl _, rfl, fun _ _ => rfl, fun _ _ => .inl rfl⟩ (W := fun _ _ => False) (.refl _ _) (fun r ρ b i _ _ => hI.facts b i) fun _ _ _ _ _ _ _ h => h
  have h1 : ρ.owner ≠ y := Unused.notLent hI hy r ρ hr
  have h2 : r ≠ y := fun e => by rw [e, hy.2] at hr; cases hr
  refine ⟨(if_neg h1).trans (if_neg (hx r ρ hr)), (if_neg h2).trans ?_⟩
  split
  · rfl
  · exact hI.names r ρ hr

/-- What safe Rust guarantees about a call that allocates. -/
theorem heap_args (hI : RInv M.P w) {x : Nat} {α : Type} {c : HeapCall α} (h : Legal M w (.heap x c)) :
    (∀ v, c.vec = some v → v.buf = x ∧ ∃ t, w.vars x = some (.vec ⟨t, v.len, v.cap⟩) ∨ AppendsText c ∧ w.vars x = some (.string ⟨t, v.len, v.cap⟩)) ∧
    (∀ v, c.vec = some v → w.name x = w.tag x ∧ w.st.home (w.name c.shared.ptr.buf) ≠ w.st.home (w.tag x)) ∧ w.NotLent x ∧ w.refs x = none := by
  obtain ⟨hr, hs, hvar⟩ := h
  have hnone : c.vec = none → w.Unused x := fun e => by rw [e] at hvar; exact hvar
  have hsome : ∀ v, c.vec = some v → v.buf = x ∧ c.shared.ptr.buf ≠ x ∧ w.NotLent x ∧ ∃ t, w.vars x = some (.vec ⟨t, v.len, v.cap⟩) ∨ AppendsText c ∧ w.vars x = some (.string ⟨t, v.len, v.cap⟩) :=
    fun v e => by rw [e] at hvar; exact hvar
  refine ⟨fun v hv => ?_, fun v hv => ?_, ?_⟩
  · obtain ⟨h1, -, -, h2⟩ := hsome v hv
    exact ⟨h1, h2⟩
  · obtain ⟨h1, h2, h3, t, h4⟩ := hsome v hv
    have h5 : ∃ o, w.vars x = some o := by rcases h4 with h4 | ⟨-, h4⟩ <;> exact ⟨_, h4⟩
    obtain ⟨o, h5⟩ := h5
    obtain ⟨e1, -, -⟩ := hI.var_name h5
    rw [tag_eq h5]
    refine ⟨e1, fun e => ?_⟩
    obtain ⟨o', g1, g2, g3, -⟩ := Within.owner hI (Inits.within hI hs.1)
    have e2 := hI.base.apart _ _ _ _ g1 h5 (by rw [← g3]; exact e)
    rcases Inits.within hI hs.1 with ⟨o2, k1, -⟩ | ⟨ρ, k1, -⟩
    · rw [(hI.var_name k1).2.1] at e2; exact h2 e2
    · rw [(ref_name k1).2] at e2; exact h3 _ ρ k1 e2
  · cases e : c.vec with
    | none => exact ⟨Unused.notLent hI (hnone e), (hnone e).2⟩
    | some v =>
      obtain ⟨-, -, h3, t, h4 | ⟨-, h4⟩⟩ := hsome v e
      · exact ⟨h3, (hI.var_name h4).2.2⟩
      · exact ⟨h3, (hI.var_name h4).2.2⟩

theorem heap_fine (hI : RInv M.P w) {x : Nat} {α : Type} {c : HeapCall α} (h : Legal M w (.heap x c)) :
    Fine M.P w T (w.owned (w.toWorld.after ((w.argsHeap c).borrow M.P w.st) fun r => w.set x (some (Client.result (w.vars x) c r)))) := by
  obtain ⟨hsome, htag, hl⟩ := heap_args hI h
  obtain ⟨hr, hs, hvar⟩ := h
  have hnone : c.vec = none → w.Unused x := fun e => by rw [e] at hvar; exact hvar
  have hperm : ∀ b i, In (place w.st ⟨w.name c.shared.ptr.buf, c.shared.ptr.off⟩) c.shared.len b i → Permits w b i (.shared (w.name c.shared.ptr.buf)) := fun b i hi => CanRead.permits hI hs hi
  refine heap_other hI hl.1 hl.2 hperm (heap_fine' (tg := w.name) hI.base hr (CanRead.source hI hs) (fun e => (hnone e).1) hsome htag fun s' G hA hG y o hne hy i hi => ?_)
  obtain ⟨f1, f2, -⟩ := Permits.facts hI hA (b := w.st.home (Spec.ownerOf o).1.buf) (i := i) (by
    rcases hG _ i (hI.base.valid y o hy).owns.exists_ (fun o' h' e => hne (hI.base.apart _ _ _ _ hy h' e.symm)) with e | ⟨hin, e⟩ <;> rw [e]
    · trivial
    · exact hperm _ _ hin) y o hy rfl hi
  exact ⟨f2, f1⟩

/-- Every step. -/
theorem step_fine (hI : RInv M.P w) {op : Op} (h : Legal M w op) {e : End} (he : Exec M.P w op e) : Fine M.P w ((through op).map w.name) e := by
  cases he with
  | new x text bs cap =>
    obtain ⟨h1, h2, h3, h4⟩ := h
    exact heap_other hI (Unused.notLent hI h1) h1.2 none_permits (new_fine' hI.base h1.1 h2 h3 h4)
  | move x y =>
    obtain ⟨-, h2, h3⟩ := h
    exact move_other hI h2 h3
  | truncate x n =>
    obtain ⟨⟨v, h1⟩, h2⟩ := h
    exact recast_other hI h1 h2 (truncate_fine hI.base h1)
  | intoBytes x =>
    obtain ⟨⟨o, h1⟩, h2⟩ := h
    exact recast_other hI h1 h2 (intoBytes_fine hI.base)
  | drop x =>
    obtain ⟨⟨o, h1⟩, h2⟩ := h
    exact heap_other hI h2 (hI.var_name h1).2.2 none_permits (drop_fine' hI.base h1)
  | borrow k excl init p n => exact borrow_fine hI h.1 h.2.1 h.2.2.1 h.2.2.2
  | forget k => exact forget_fine hI k
  | read p n => exact read_fine hI h
  | write p bs => exact write_fine hI h
  | call c keep => exact call_fine hI h
  | par threads i config src dst keep r hr => exact (par_fine hI h).1 r hr
  | heap x c => exact heap_fine hI h
  | ext c => exact ext_fine hI h

end Simd.Lend
