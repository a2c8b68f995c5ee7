import Verif.Lemmas.LendTwinSteps
/-
Calls that allocate; and all steps of programs with references, on two machines.
-/
namespace Simd.Lend
open Borrow Spec
open Client (Seen)

variable {M M' : Machine} {w w' : World}

/-! ### Calls that allocate -/

/-- What a call does that makes a value for variable `x`, or appends to what it holds, `prev`. -/
def heapEffect (kinds : Nat → Option (EncodeTy × Nat)) (shapes : Nat → Option Ref) (x : Nat) (prev : List Byte) {α : Type} (c : HeapCall α) (res : Option (List Byte)) : Effect :=
  match c.vec, res with
  | none, none => ⟨kinds, shapes, 0, 0, [], id⟩
  | none, some out => ⟨fun y => if y = x then some (Client.madeTy c, out.length) else kinds y, shapes, x, 0, out, id⟩
  | some _, res => ⟨fun y => if y = x then (kinds x).map fun k => (k.1, (prev ++ res.getD []).length) else kinds y, shapes, x, 0, prev ++ res.getD [], id⟩

def heapSeen (prev : List Byte) {α : Type} (c : HeapCall α) (res : Option (List Byte)) : Seen :=
  match c.vec, res with
  | _, none => .failed
  | none, some out => .length out.length
  | some _, some out => .length (prev ++ out).length

theorem heap_any (kinds : Nat → Option (EncodeTy × Nat)) (shapes : Nat → Option Ref) (x : Nat) (prev xs : List Byte) {α : Type} (c : HeapCall α) (res : Option (List Byte)) :
    heapEffect kinds shapes x prev (Client.anyImplHeap c) res = heapEffect kinds shapes x prev c res ∧ heapSeen prev (Client.anyImplHeap c) res = heapSeen prev c res ∧
      (HeapMeans xs res (Client.anyImplHeap c) ↔ HeapMeans xs res c) := by
  cases c <;> cases res <;> exact ⟨rfl, rfl, Iff.rfl⟩

theorem hasTy_kind {o : Owned} {ty : EncodeTy} (h : o.HasTy ty) : kind o = (ty, Client.len o) := by
  cases o <;> cases ty <;> first | rfl | exact h.elim

theorem owner_move_rvec (o : Owned) : (Spec.ownerOf o).1.buf = o.rvec.buf := (Client.owner_rvec o).1

theorem plain_none {x : Nat} (h : w.vars x = none) : w.plain.vars x = none := by
  show (w.vars x).map _ = _; rw [h]; rfl

theorem did_heap (hI : RInv M.P w) {x : Nat} {α : Type} {c : HeapCall α} (h : Legal M w (.heap x c)) {xs : List Byte} (hl : xs.length = c.shared.len) (hx : w.Bytes c.shared.ptr xs)
    {prev : List Byte} (hprev : c.vec ≠ none → ∀ o, w.vars x = some o → prev.length = Client.len o ∧ Reads w.st.mem (place w.st (Spec.ownerOf o).1) prev) {q : Plain}
    (he : w.plain.after (((w.plain.argsHeap c).prog M.P).run w.plain.mem) (fun r => w.plain.set x (some (Client.result (w.plain.vars x) c r))) = .ok q) :
    ∃ res, HeapMeans xs res c ∧ Plain.sawHeap (w.plain.vars x) c (((w.plain.argsHeap c).prog M.P).run w.plain.mem) = heapSeen prev c res ∧
      Did w.plain q (heapEffect w.plain.kinds w.plain.shapes x prev c res) := by
  obtain ⟨hsome, htag, hnl, hxr⟩ := heap_args hI h
  obtain ⟨hr, hs, hun⟩ := h
  have hun : c.vec = none → w.Unused x := fun e => by rw [e] at hun; exact hun
  obtain ⟨hr', hb, ho⟩ := Client.heap_borrows' (tg := w.name) hI.base hr (CanRead.source hI hs) hsome htag
  have hvar : ∀ v, c.vec = some v → v.buf = x ∧ ∃ o, w.vars x = some o := fun v hv => by
    obtain ⟨h1, t, ht⟩ := hsome v hv
    rcases ht with ht | ⟨-, ht⟩ <;> exact ⟨h1, _, ht⟩
  have ea : w.plain.argsHeap c = untagHeap w.st (w.argsHeap c) := plain_argsHeap hI (Inits.within hI hs.1) fun v hv => by
    obtain ⟨rfl, o, hv⟩ := hvar v hv
    unfold Plain.alloc
    rw [plain_noref (hI.var_name hv).2.2, plain_var hv, (hI.var_name hv).1]
    exact move_owner _ o
  have hr' : (w.plain.argsHeap c).RunsOn M := by rw [ea]; exact hr'
  have hb : (w.plain.argsHeap c).Borrows M.P w.plain.mem := by rw [ea]; exact hb
  have esh : (w.plain.argsHeap c).shared = ⟨place w.st ⟨w.name c.shared.ptr.buf, c.shared.ptr.off⟩, c.shared.len⟩ := by
    rw [ea]; exact Client.plain_shared (w := w.toWorld) w.name c
  have evec : (w.plain.argsHeap c).vec = c.vec.map fun v => { v with buf := w.st.home (w.name v.buf) } := by
    rw [ea]; exact Client.plain_vec (w := w.toWorld) w.name c
  have hframe : ∀ m, ((∃ r, ((w.plain.argsHeap c).prog M.P).run w.plain.mem = .ok r m) ∨ ((w.plain.argsHeap c).prog M.P).run w.plain.mem = .err m) →
      ∀ b i, b < w.plain.mem.nbuf → (∀ o, w.plain.vars x = some o → b ≠ (Spec.ownerOf o).1.buf) → m.cell b i = w.plain.mem.cell b i := fun m hm b i hlt hne => by
    refine (Prog.run_after ((w.plain.argsHeap c).inside M w.plain.mem hr' hb) hm).cell b i hlt fun hW => ?_
    rcases hW with hW | ⟨v', h1, h2⟩
    · omega
    · rw [evec] at h1
      obtain ⟨v, hv, rfl⟩ := Option.map_eq_some_iff.1 h1
      obtain ⟨rfl, o, ho⟩ := hvar v hv
      refine hne _ (plain_var ho) ?_
      dsimp only at h2
      rw [h2, move_owner, (hI.var_name ho).1]
  have hmeans : ∀ res, HeapMeans xs res (w.plain.argsHeap c) ↔ HeapMeans xs res c := fun res => by cases c <;> exact Iff.rfl
  cases e : ((w.plain.argsHeap c).prog M.P).run w.plain.mem with
  | ub => rw [e] at he; cases he
  | panic => rw [e] at he; cases he
  | err m =>
    rw [e] at he
    injection he with he
    subst he
    have hm := (hmeans _).1 (HeapCall.content_err M _ w.plain.mem hr' hb (xs := xs) (by rw [esh]; exact hl) (by rw [esh]; exact hx) e)
    have hv : c.vec = none := by
      have ho : ObeysHeap M.P w.st (w.argsHeap c) (((untagHeap w.st (w.argsHeap c)).prog M.P).run w.st.mem) := ho
      rw [← ea, show w.st.mem = w.plain.mem from rfl, e] at ho
      unfold ObeysHeap at ho
      cases e1 : (w.argsHeap c).borrow M.P w.st <;> rw [e1] at ho <;> first | exact ho.elim | skip
      have hv := ho.2.2.1
      cases c <;> first | rfl | cases hv
    refine ⟨none, hm, ?_, ?_⟩
    · unfold heapSeen; rw [hv]; rfl
    · unfold heapEffect
      rw [hv]
      refine did_same (fun y o i hy => hframe m (.inr e) _ i (plain_exists hI hy) fun o' ho' e' => ?_) rfl fun _ _ h => h
      rw [plain_none (hun hv).1] at ho'; cases ho'
  | ok r m =>
    rw [e] at he
    injection he with he
    subst he
    have hc := HeapCall.content M _ w.plain.mem hr' hb (xs := xs) (by rw [esh]; exact hl) (by rw [esh]; exact hx) e (w.plain.vars x)
    have eres : Client.result (w.plain.vars x) (w.plain.argsHeap c) r = Client.result (w.plain.vars x) c r := by cases c <;> rfl
    have hview := Client.viewHeap_eq (Client.result (w.plain.vars x) c r) c r
    unfold HeapCall.Content at hc
    rw [evec, eres] at hc
    cases hv : c.vec with
    | none =>
      rw [hv] at hc
      obtain ⟨out, h1, ⟨-, -, -, h3, h4⟩, h5, -⟩ := hc
      have hlen : out.length = Client.len (Client.result (w.plain.vars x) c r) := by rw [(Client.owner_rvec _).2.2]; exact h3.symm
      refine ⟨some out, (hmeans _).1 h1, ?_, ?_⟩
      · show Client.viewHeap _ c r = _
        rw [hview.2 (fun hf => by cases c <;> first | exact hf.elim | cases hv)]
        unfold heapSeen
        rw [hv]
        exact congrArg Seen.length hlen.symm
      · have hd := did_assign hI hnl (m := m) (o := Client.result (w.plain.vars x) c r) hlen (by rw [owner_move_rvec]; exact h4) (hframe m (.inl ⟨r, e⟩))
        have hk : kind (Client.result (w.plain.vars x) c r) = (Client.madeTy c, out.length) := by
          rw [hasTy_kind (Client.hasTy_made hv (by cases c <;> exact h5)), hlen]
        rw [hk] at hd
        unfold heapEffect
        rw [hv]
        exact hd
    | some v =>
      obtain ⟨rfl, o, ho⟩ := hvar v hv
      obtain ⟨-, o1, ho1, q2, q3, -⟩ := Client.heap_var' hsome v hv
      obtain ⟨p1, p2⟩ := hprev (by rw [hv]; nofun) o1 ho1
      rw [hv] at hc
      have hvec := Client.heap_isVec (M := M) hI.base ho1 rfl q2 q3 p1 p2
      obtain ⟨res, h1, h2, ⟨-, -, h3, h4⟩, -⟩ := hc prev (by dsimp only; rw [(htag v hv).1]; exact hvec)
      have hlen : (prev ++ res.getD []).length = Client.len (Client.result (w.plain.vars v.buf) c r) := by rw [(Client.owner_rvec _).2.2]; exact h3.symm
      have hf : Failed c r ↔ res = none := by
        refine .trans ?_ h2
        cases c <;> exact Iff.rfl
      refine ⟨res, (hmeans _).1 h1, ?_, ?_⟩
      · show Client.viewHeap _ c r = _
        unfold heapSeen
        rw [hv]
        cases res with
        | none => exact hview.1 (hf.2 rfl)
        | some out =>
          rw [hview.2 fun h => by cases hf.1 h]
          exact congrArg Seen.length hlen.symm
      · have hd := did_assign hI hnl (m := m) (o := Client.result (w.plain.vars v.buf) c r) hlen (by rw [owner_move_rvec]; exact h4) (hframe m (.inl ⟨r, e⟩))
        have hk : (w.plain.kinds v.buf).map (fun k => (k.1, (prev ++ res.getD []).length)) = some (kind (Client.result (w.plain.vars v.buf) c r)) := by
          have hty : (kind o).1 = (kind (Client.result (w.plain.vars v.buf) c r)).1 := by
            obtain ⟨-, t, ht⟩ := hsome v hv
            rcases ht with ht | ⟨hat, ht⟩
            · rw [ho] at ht; cases ht
              rw [plain_var ho]
              cases c <;> first | (cases hv; done) | rfl
            · rw [ho] at ht; cases ht
              rw [plain_var ho]
              cases c <;> first | (cases hv; done) | exact hat.elim | rfl
          rw [plain_kind ho, Option.map_some, hty]
          refine congrArg some (Prod.ext rfl ?_)
          rw [kind_len, ← hlen]
        rw [← hk] at hd
        unfold heapEffect
        rw [hv]
        exact hd

/-! ### Functions of `ext.rs` -/

theorem ext_unique {c : ExtCall} {xs : List Byte} {r r' : Option (List Byte)} (h : ExtMeans xs r c) (h' : ExtMeans xs r' c) : r = r' := by
  cases c with
  | parse => exact theOnly_unique (fun u v h1 h2 => Option.some.inj (((Uuid.parseS_iff _ u).2 h1).symm.trans ((Uuid.parseS_iff _ v).2 h2))) (by cases r <;> exact h) (by cases r' <;> exact h')
  | parseSimple => exact theOnly_unique (fun u v h1 h2 => Option.some.inj (((Uuid.simpleS_iff _ u).2 h1).symm.trans ((Uuid.simpleS_iff _ v).2 h2))) (by cases r <;> exact h) (by cases r' <;> exact h')
  | parseHyphenated => exact theOnly_unique (fun u v h1 h2 => Option.some.inj (((Uuid.hyphenatedS_iff _ u).2 h1).symm.trans ((Uuid.hyphenatedS_iff _ v).2 h2))) (by cases r <;> exact h) (by cases r' <;> exact h')
  | formatSimple | formatHyphenated => exact Eq.trans h (Eq.symm h')

theorem ext_any (c : ExtCall) (xs : List Byte) (res : Option (List Byte)) : (ExtMeans xs res (anyExt c) ↔ ExtMeans xs res c) ∧ (anyExt c).shared = c.shared := by cases c <;> exact ⟨Iff.rfl, rfl⟩

def extSeen : Option (List Byte) → Seen
  | some r => .bytes r
  | none => .failed

theorem did_ext (hI : RInv M.P w) {c : ExtCall} (h : Legal M w (.ext c)) {xs : List Byte} (hl : xs.length = c.shared.len) (hx : w.Bytes c.shared.ptr xs) {w1 : World}
    (he : w.after ((w.argsExt c).borrow w.st) = .ok w1) :
    ∃ res, ExtMeans xs res c ∧ sawBytes ((w.argsExt c).borrow w.st) = extSeen res ∧ Did w.plain w1.plain ⟨w.plain.kinds, w.plain.shapes, 0, 0, [], id⟩ := by
  obtain ⟨res, s', h1, h2, h3, h4⟩ := ext_world hI h hl hx
  rw [h3] at he
  injection he with he
  subst he
  refine ⟨res, h1, by rw [h2]; cases res <;> rfl, ?_⟩
  rw [plain_stay hI (homes_after h4.after)]
  exact did_same (fun y o i hy => (h4.kept.2 _ (plain_exists hI hy)).2 i) rfl fun _ _ h => h

/-! ### All steps, on two machines -/

theorem call_any (kinds : Nat → Option (EncodeTy × Nat)) (shapes : Nat → Option Ref) (x : Nat) (xs : List Byte) (d : Nat) (v : Seen) {α : Type} (c : Call α) (keep : Option Nat) (res : Option (List Byte)) :
    callEffect kinds shapes x (Client.anyImpl c) keep res = callEffect kinds shapes x c keep res ∧ (Client.SeesResult xs v (Client.anyImpl c) res ↔ Client.SeesResult xs v c res) ∧
      (CallMeans xs d res (Client.anyImpl c) ↔ CallMeans xs d res c) ∧ input (Client.anyImpl c) = input c ∧ (Client.anyImpl c).exclusive = c.exclusive := by
  refine ⟨?_, ?_, ?_, ?_, ?_⟩
  · cases keep <;> cases res <;> cases c <;> rfl
  · cases c <;> cases res <;> exact Iff.rfl
  · cases c <;> exact Iff.rfl
  · cases c <;> rfl
  · cases c <;> rfl

theorem seesResult_unique {α : Type} {c : Call α} {xs : List Byte} {res : Option (List Byte)} {v v' : Seen} (h : Client.SeesResult xs v c res) (h' : Client.SeesResult xs v' c res) : v = v' := by
  cases res with
  | none => exact Eq.trans h (Eq.symm h')
  | some ys => exact Client.sees_unique h h'

theorem CanCall.inits {α : Type} {c : Call α} {keep : Option Nat} (h : w.CanCall M c keep) : w.Inits (input c).1 (input c).2 := by
  rcases input_cases c with ⟨hp, e⟩ | e <;> rw [e]
  · exact h.inplace hp
  · exact h.shared.1

/-- A call on two machines. -/
theorem twin_kept (hI : RInv M.P w) (hI' : RInv M'.P w') (ht : Twin w w') {α : Type} {c c' : Call α} {keep : Option Nat} (hc : Client.anyImpl c = Client.anyImpl c') (h : w.CanCall M c keep)
    (h' : w'.CanCall M' c' keep) {o o' : Out α} (ho : ∀ xs, xs.length = (input c).2 → w.Bytes (input c).1 xs → Computes (w.plain.args c) w.plain.mem xs o)
    (ho' : ∀ xs, xs.length = (input c').2 → w'.Bytes (input c').1 xs → Computes (w'.plain.args c') w'.plain.mem xs o')
    (hx : ∀ xs res, xs.length = (input c).2 → w.Bytes (input c).1 xs → CallMeans xs c.exclusive.2 res c → touched xs c.exclusive.2 res c ≤ (res.getD []).length)
    (hx' : ∀ xs res, xs.length = (input c').2 → w'.Bytes (input c').1 xs → CallMeans xs c'.exclusive.2 res c' → touched xs c'.exclusive.2 res c' ≤ (res.getD []).length)
    {w1 w1' : World} (he : w.plain.kept c keep o = .ok w1.plain) (he' : w'.plain.kept c' keep o' = .ok w1'.plain) : Plain.saw c o = Plain.saw c' o' ∧ Twin w1 w1' := by
  have ein : input c = input c' := by
    rw [← (call_any w.plain.kinds w.plain.shapes 0 [] 0 .nothing c keep none).2.2.2.1, ← (call_any w.plain.kinds w.plain.shapes 0 [] 0 .nothing c' keep none).2.2.2.1, hc]
  have eex : c.exclusive = c'.exclusive := by
    rw [← (call_any w.plain.kinds w.plain.shapes 0 [] 0 .nothing c keep none).2.2.2.2, ← (call_any w.plain.kinds w.plain.shapes 0 [] 0 .nothing c' keep none).2.2.2.2, hc]
  obtain ⟨xs, hl, b1, b2⟩ := ht.reads hI hI' (CanCall.inits h) (by rw [ein]; exact CanCall.inits h')
  rw [ein] at b2
  have hl' : xs.length = (input c').2 := by rw [← ein]; exact hl
  obtain ⟨res, m1, m2, m3⟩ := did_kept hI h (ho xs hl b1) (fun res => hx xs res hl b1) he
  obtain ⟨res', m1', m2', m3'⟩ := did_kept hI' h' (ho' xs hl' b2) (fun res => hx' xs res hl' b2) he'
  rw [← eex] at m1' m3'
  have m1 := (call_any w.plain.kinds w.plain.shapes 0 xs c.exclusive.2 .nothing c keep res).2.2.1.2 m1
  have m1' := (call_any w.plain.kinds w.plain.shapes 0 xs c.exclusive.2 .nothing c' keep res').2.2.1.2 m1'
  rw [← hc] at m1'
  obtain rfl := m1.unique m1'
  have m2 := (call_any w.plain.kinds w.plain.shapes 0 xs 0 _ c keep res).2.1.2 m2
  have m2' := (call_any w.plain.kinds w.plain.shapes 0 xs 0 _ c' keep res).2.1.2 m2'
  rw [← hc] at m2'
  refine ⟨seesResult_unique m2 m2', ht.did m3 ?_⟩
  rw [← (call_any _ _ _ xs 0 .nothing c' keep res).1, ← hc, (call_any _ _ _ xs 0 .nothing c keep res).1, ← ht.kinds, ← ht.shapes, ← ht.ownerOf] at m3'
  exact m3'

theorem call_computes (hI : RInv M.P w) {α : Type} {c : Call α} {keep : Option Nat} (h : w.CanCall M c keep) {xs : List Byte} (hl : xs.length = (input c).2) (hx : w.Bytes (input c).1 xs) :
    Computes (w.plain.args c) w.plain.mem xs (((w.plain.args c).prog M.P).run w.plain.mem) := by
  obtain ⟨hr, hr', hld, hb⟩ := h.borrows hI
  rw [plain_args hI (Inits.within hI h.shared.1) (CanWrite.within h.excl)]
  exact C90_call M _ w.st.mem hr' hb (by rw [plain_input]; exact hl) (by rw [plain_input]; exact hx)

theorem par_computes' (hI : RInv M.P w) {threads : Nat} {i : Option Isa} {config : Base64.Config} {src dst : Slice} {keep : Option Nat} (h : w.CanCall M (.base64Encode i config src dst) keep) {xs : List Byte}
    (hl : xs.length = src.len) (hx : w.Bytes src.ptr xs) {o : Out Slice} (ho : Fork.Outcome (Base64.par_encode M.P threads i config ⟨w.plain.at' src.ptr, src.len⟩ ⟨w.plain.at' dst.ptr, dst.len⟩) w.plain.mem o)
    (hp : o ≠ .panic) : Computes (w.plain.args (.base64Encode i config src dst)) w.plain.mem xs o := by
  obtain ⟨hr, hr', hld, hb⟩ := h.borrows hI
  rw [← plain_args hI (Inits.within hI h.shared.1) (CanWrite.within h.excl)] at hr' hb
  exact par_computes M threads i config _ _ _ _ hl.symm (by have e := at_eq hI (Inits.within hI h.shared.1 : w.Within src.ptr src.len); exact (show Reads w.st.mem (w.plain.at' src.ptr) xs by rw [e]; exact hx)) hr' hb ho hp

theorem twin_step (hI : RInv M.P w) (hI' : RInv M'.P w') (ht : Twin w w') {op op' : Op} (hsrc : source op = source op') (hl : Legal M w op) (hl' : Legal M' w' op') (hx : Exact w op) (hx' : Exact w' op')
    {v v' : Seen} {w1 w1' : World} (hs : Shows M.P w op v (.ok w1)) (hs' : Shows M'.P w' op' v' (.ok w1')) : v = v' ∧ Twin w1 w1' := by
  have quiet : Quiet op → Quiet op' → v = v' ∧ Twin w1 w1' := fun hq hq' => by
    obtain ⟨rfl, hd⟩ := did_quiet hI hl hq (shows_plain hI hl hs) rfl
    obtain ⟨rfl, hd'⟩ := did_quiet hI' hl' hq' (shows_plain hI' hl' hs') rfl
    refine ⟨rfl, ht.did hd ?_⟩
    have eo : w.plain.ownerOf = w'.plain.ownerOf := funext ht.ownerOf
    rw [← quiet_source, ← hsrc, quiet_source, ← ht.kinds, ← ht.shapes, ← eo] at hd'
    exact hd'
  have hp := shows_plain hI hl hs
  have hp' := shows_plain hI' hl' hs'
  generalize ee : (End.ok w1).plain = e at hp
  generalize ee' : (End.ok w1').plain = e' at hp'
  cases op <;> cases op' <;> first | (cases hsrc; done) | exact quiet trivial trivial | skip
  case read.read p n p' n' =>
    cases hsrc
    obtain ⟨xs, h1, h2, h3⟩ := ht.reads hI hI' hl.1 hl'.1
    have key : ∀ {w : World} {P : Plat}, RInv P w → w.Inits p n → w.Bytes p xs → (loadBytes (w.plain.at' p) n).run w.plain.mem = .ok xs w.plain.mem := fun {w P} hI hi hb => by
      have hb : Reads w.plain.mem (w.plain.at' p) xs := by rw [at_eq hI (Inits.within hI hi)]; exact hb
      rw [← h1]
      show (Prog.load _ _ _).run _ = _
      rw [prog_run_load, hb.has.read]; rfl
    have k1 := key hI hl.1 h2
    have k2 := key hI' hl'.1 h3
    cases hp
    cases hp'
    rw [k1] at ee ⊢
    rw [k2] at ee' ⊢
    injection ee with ee
    injection ee' with ee'
    refine ⟨rfl, ?_⟩
    have d1 := did_same (w := w) (m := w.plain.mem) (refs := w.plain.refs) (fun _ _ _ _ => rfl) rfl fun _ _ h => h
    have d2 := did_same (w := w') (m := w'.plain.mem) (refs := w'.plain.refs) (fun _ _ _ _ => rfl) rfl fun _ _ h => h
    rw [← ht.kinds, show Plain.shapes ⟨w'.plain.mem, w'.plain.vars, w'.plain.refs⟩ = w.plain.shapes from ht.shapes.symm] at d2
    exact ht.did (E := ⟨w.plain.kinds, w.plain.shapes, 0, 0, [], id⟩) (by rw [ee]; exact d1) (by rw [ee']; exact d2)
  case call.call α c keep α' c' keep' =>
    injection hsrc with h1 h2 h3
    subst h1 h3
    have h2 := eq_of_heq h2
    cases hp
    cases hp'
    exact twin_kept hI hI' ht h2 hl hl' (fun xs h1 h2 => call_computes hI hl h1 h2) (fun xs h1 h2 => call_computes hI' hl' h1 h2) hx hx' ee.symm ee'.symm
  case par.par threads i config src dst keep threads' i' config' src' dst' keep' =>
    injection hsrc with h1 h2 h3 h4 h5 h6
    subst h3 h4 h5 h6
    cases hp with | par _ _ _ _ _ _ o ho => ?_
    cases hp' with | par _ _ _ _ _ _ o' ho' => ?_
    have hne : o ≠ .panic := fun e => by subst e; cases keep <;> cases ee
    have hne' : o' ≠ .panic := fun e => by subst e; cases keep <;> cases ee'
    exact twin_kept (c := .base64Encode i config src dst) (c' := .base64Encode i' config src dst) hI hI' ht rfl hl hl' (fun xs h1 h2 => par_computes' hI hl h1 h2 ho hne) (fun xs h1 h2 => par_computes' hI' hl' h1 h2 ho' hne')
      (fun _ _ _ _ _ => Nat.le_refl _) (fun _ _ _ _ _ => Nat.le_refl _) ee.symm ee'.symm
  case heap.heap x α c x' α' c' =>
    injection hsrc with h1 h2 h3
    subst h1 h2
    have h3 := eq_of_heq h3
    have esh : c.shared = c'.shared := by
      have e : ∀ c : HeapCall α, (Client.anyImplHeap c).shared = c.shared := fun c => by cases c <;> rfl
      rw [← e c, ← e c', h3]
    have evec : c.vec = none ↔ c'.vec = none := by
      have e : ∀ c : HeapCall α, (Client.anyImplHeap c).vec = none ↔ c.vec = none := fun c => by cases c <;> first | exact Iff.rfl | exact ⟨nofun, nofun⟩
      rw [← e c, ← e c', h3]
    obtain ⟨xs, g1, g2, g3⟩ := ht.reads hI hI' hl.2.1.1 (by rw [esh]; exact hl'.2.1.1)
    obtain ⟨prev, hprev, hprev'⟩ : ∃ prev : List Byte, (∀ o, w.vars x = some o → prev.length = Client.len o ∧ Reads w.st.mem (place w.st (Spec.ownerOf o).1) prev) ∧
        (∀ o, w'.vars x = some o → prev.length = Client.len o ∧ Reads w'.st.mem (place w'.st (Spec.ownerOf o).1) prev) := by
      cases hv : w.vars x with
      | none =>
        refine ⟨[], nofun, fun o ho => ?_⟩
        have e := congrFun ht.kinds x
        rw [plain_kind ho] at e
        unfold Plain.kinds at e
        rw [plain_none hv] at e
        cases e
      | some o =>
        obtain ⟨o', hv', ek⟩ := ht.holds hv
        have el : Client.len o = Client.len o' := by rw [← kind_len, ← kind_len, ek]
        obtain ⟨ys, y1, y2, y3⟩ := ht.reads hI hI' (p := ⟨x, 0⟩) (n := Client.len o) (.inl ⟨o, hv, by show 0 + _ ≤ _; omega⟩) (.inl ⟨o', hv', by show 0 + _ ≤ _; omega⟩)
        have key : ∀ {w : World} {P : Plat} {o : Owned}, RInv P w → w.vars x = some o → w.Bytes ⟨x, 0⟩ ys → Reads w.st.mem (place w.st (Spec.ownerOf o).1) ys := fun {w P o} hI hv hb => by
          have hb : Reads w.st.mem (place w.st ⟨w.name x, 0⟩) ys := hb
          rw [(hI.var_name hv).1] at hb
          have hst := (hI.base.valid x o hv).owns.start
          have e : (⟨(Spec.ownerOf o).1.buf, 0⟩ : Ptr) = (Spec.ownerOf o).1 := by rw [← hst]
          rw [e] at hb
          exact hb
        refine ⟨ys, fun o1 h1 => ?_, fun o1 h1 => ?_⟩
        · cases h1; exact ⟨y1, key hI hv y2⟩
        · rw [hv'] at h1; cases h1; exact ⟨y1.trans el, key hI' hv' y3⟩
    cases hp
    cases hp'
    obtain ⟨res, m1, m2, m3⟩ := did_heap hI hl g1 g2 (fun _ => hprev) ee.symm
    obtain ⟨res', m1', m2', m3'⟩ := did_heap hI' hl' (by rw [← esh]; exact g1) (by rw [← esh]; exact g3) (fun _ => hprev') ee'.symm
    have m1 := (heap_any w.plain.kinds w.plain.shapes x prev xs c res).2.2.2 m1
    have m1' := (heap_any w.plain.kinds w.plain.shapes x prev xs c' res').2.2.2 m1'
    rw [← h3] at m1'
    obtain rfl := m1.unique m1'
    rw [m2, m2']
    refine ⟨?_, ht.did m3 ?_⟩
    · rw [← (heap_any w.plain.kinds w.plain.shapes x prev xs c res).2.1, ← (heap_any w.plain.kinds w.plain.shapes x prev xs c' res).2.1, h3]
    · rw [← (heap_any _ _ x prev xs c' res).1, ← h3, (heap_any _ _ x prev xs c res).1, ← ht.kinds, ← ht.shapes] at m3'
      exact m3'
  case ext.ext c c' =>
    injection hsrc with h3
    have esh : c.shared = c'.shared := by rw [← (ext_any c [] none).2, ← (ext_any c' [] none).2, h3]
    obtain ⟨xs, g1, g2, g3⟩ := ht.reads hI hI' hl.2.1 (by rw [esh]; exact hl'.2.1)
    generalize e1 : End.ok w1 = f at hs
    generalize e1' : End.ok w1' = f' at hs'
    cases hs with
    | quiet hq => exact hq.elim
    | ext =>
      cases hs' with
      | quiet hq => exact hq.elim
      | ext =>
        obtain ⟨res, m1, m2, m3⟩ := did_ext hI hl g1 g2 e1.symm
        obtain ⟨res', m1', m2', m3'⟩ := did_ext hI' hl' (by rw [← esh]; exact g1) (by rw [← esh]; exact g3) e1'.symm
        have m1 := (ext_any c xs res).1.2 m1
        have m1' := (ext_any c' xs res').1.2 m1'
        rw [← h3] at m1'
        obtain rfl := ext_unique m1 m1'
        rw [← ht.kinds, ← ht.shapes] at m3'
        exact ⟨m2.trans m2'.symm, ht.did m3 m3'⟩

end Simd.Lend
