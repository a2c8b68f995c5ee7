import Verif.Lemmas.LendTwin
/-
The effect of each step of a program with references.
-/
namespace Simd.Lend
open Borrow Spec
open Client (Seen)

variable {M : Machine} {P : Plat} {w w' : World}

/-! ### Steps of which nothing is seen -/

def quietEffect (kinds : Nat → Option (EncodeTy × Nat)) (shapes : Nat → Option Ref) (owner : Nat → Nat) : Op → Effect
  | .new x text bs _ => ⟨fun y => if y = x then some (if text then .string else .vec, bs.length) else kinds y, shapes, x, 0, bs, id⟩
  | .move x y => ⟨fun z => if z = y then kinds x else if z = x then none else kinds z, shapes, 0, 0, [], fun z => if z = y then x else z⟩
  | .truncate x n => ⟨fun y => if y = x then (kinds x).map fun k => (k.1, min n k.2) else kinds y, shapes, 0, 0, [], id⟩
  | .intoBytes x => ⟨fun y => if y = x then (kinds x).map fun k => (Client.plainTy k.1, k.2) else kinds y, shapes, 0, 0, [], id⟩
  | .drop x => ⟨fun y => if y = x then none else kinds y, shapes, 0, 0, [], id⟩
  | .borrow k excl init p n => ⟨kinds, fun r => if r = k then some ⟨0, p.off, n, excl, init, owner p.buf⟩ else shapes r, 0, 0, [], id⟩
  | .forget k => ⟨kinds, fun r => if r = k then none else shapes r, 0, 0, [], id⟩
  | .write p bs => ⟨kinds, shapes, owner p.buf, p.off, bs, id⟩
  | _ => ⟨kinds, shapes, 0, 0, [], id⟩

theorem quiet_source (kinds : Nat → Option (EncodeTy × Nat)) (shapes : Nat → Option Ref) (owner : Nat → Nat) (op : Op) : quietEffect kinds shapes owner (source op) = quietEffect kinds shapes owner op := by
  cases op <;> rfl

theorem shapes_set {p : Plain} {m : Mem} {vars : Nat → Option Owned} {k : Nat} {ρ : Option Ref} :
    Plain.shapes ⟨m, vars, p.setRef k ρ⟩ = fun r => if r = k then ρ.map fun ρ => { ρ with tag := 0 } else p.shapes r := by
  funext r
  show (p.setRef k ρ r).map _ = _
  unfold Plain.setRef
  split <;> rfl

theorem kinds_set {p : Plain} {m : Mem} {refs : Nat → Option Ref} {x : Nat} {o : Option Owned} :
    Plain.kinds ⟨m, p.set x o, refs⟩ = fun y => if y = x then o.map kind else p.kinds y := by
  funext y
  show (p.set x o y).map _ = _
  unfold Plain.set
  split <;> rfl

/-- No byte of a variable that is not lent is known by a reference. -/
theorem known_notLent {x : Nat} (hx : w.NotLent x) {V : Nat → Option (EncodeTy × Nat)} {i : Nat} (h : Known V w.plain.shapes x i) : ∃ ty n, V x = some (ty, n) ∧ i < n := by
  rcases h with h | ⟨r, ρ, h1, h2, -⟩
  · exact h
  · obtain ⟨ρ0, h3, rfl⟩ := shape_some h1
    exact absurd h2 (hx r ρ0 h3)

/-- What a variable that is not lent holds gets shorter, or is of another type, or is gone. -/
theorem did_change {x : Nat} (hx : w.NotLent x) {g : Option Owned → Option Owned} {V : Nat → Option (EncodeTy × Nat)} (hV : (fun y => if y = x then (g (w.plain.vars x)).map kind else w.plain.kinds y) = V)
    (hg : ∀ o, g (w.plain.vars x) = some o → ∃ o0, w.plain.vars x = some o0 ∧ (kind o).2 ≤ (kind o0).2 ∧ (Spec.ownerOf o).1.buf = (Spec.ownerOf o0).1.buf) :
    Did w.plain ⟨w.plain.mem, w.plain.set x (g (w.plain.vars x)), w.plain.refs⟩ ⟨V, w.plain.shapes, 0, 0, [], id⟩ := by
  refine did_vars (kinds_set.trans hV) id fun y i h => ?_
  by_cases e : y = x
  · subst e
    obtain ⟨ty, n, h1, h2⟩ := known_notLent hx h
    rw [← hV] at h1
    dsimp only at h1
    rw [if_pos rfl] at h1
    obtain ⟨o, h3, h4⟩ := Option.map_eq_some_iff.1 h1
    obtain ⟨o0, h5, h6, h7⟩ := hg o h3
    refine ⟨.inl ⟨(kind o0).1, (kind o0).2, by show (w.plain.vars y).map kind = _; rw [h5]; rfl, by rw [h4] at h6; dsimp only at h6; omega⟩, ?_⟩
    show (w.plain.set y _ y).map _ = (w.plain.vars y).map _
    rw [show w.plain.set y (g (w.plain.vars y)) y = g (w.plain.vars y) from if_pos rfl, h3, h5]
    exact congrArg some h7
  · refine ⟨?_, by rw [show w.plain.set x (g (w.plain.vars x)) y = w.plain.vars y from if_neg e]; rfl⟩
    rcases h with ⟨ty, n, h1, h2⟩ | h
    · rw [← hV] at h1
      dsimp only at h1
      rw [if_neg e] at h1
      exact .inl ⟨ty, n, h1, h2⟩
    · exact .inr h

theorem did_quiet (hI : RInv M.P w) {op : Op} (h : Legal M w op) (hq : Quiet op) {v : Seen} {e : Plain.End} (hp : Plain.Exec M.P w.plain op v e) {q : Plain} (he : e = .ok q) :
    v = .nothing ∧ Did w.plain q (quietEffect w.plain.kinds w.plain.shapes w.plain.ownerOf op) := by
  cases hp with
  | read | call | par | heap | ext => exact hq.elim
  | new x text bs cap =>
    refine ⟨rfl, ?_⟩
    obtain ⟨h1, h2, -⟩ := h
    have e1 : (Client.create bs cap).run w.plain.mem = .ok w.st.mem.nbuf ((w.st.mem.alloc cap).write ⟨w.st.mem.nbuf, 0⟩ bs) := by
      have hz : (w.st.mem.alloc cap).size w.st.mem.nbuf = cap := if_pos rfl
      show (if 0 + bs.length ≤ (w.st.mem.alloc cap).size w.st.mem.nbuf then _ else _) = _
      rw [hz, if_pos (by omega)]; rfl
    rw [e1] at he
    injection he with he
    subst he
    have hd := did_assign hI (Unused.notLent hI h1) (m := (w.st.mem.alloc cap).write ⟨w.st.mem.nbuf, 0⟩ bs)
      (o := if text then .string ⟨w.st.mem.nbuf, bs.length, cap⟩ else .vec ⟨w.st.mem.nbuf, bs.length, cap⟩) (zs := bs) (by cases text <;> rfl) ?_ ?_
    · have ek : kind (if text then .string ⟨w.st.mem.nbuf, bs.length, cap⟩ else .vec ⟨w.st.mem.nbuf, bs.length, cap⟩) = (if text then .string else .vec, bs.length) := by cases text <;> rfl
      rw [ek] at hd
      exact hd
    · have eb : (Spec.ownerOf (if text then Owned.string ⟨w.st.mem.nbuf, bs.length, cap⟩ else .vec ⟨w.st.mem.nbuf, bs.length, cap⟩)).1.buf = w.st.mem.nbuf := by cases text <;> rfl
      rw [eb]
      refine ⟨?_, fun i hi => ?_⟩
      · show 0 + bs.length ≤ (w.st.mem.alloc cap).size w.st.mem.nbuf
        rw [show (w.st.mem.alloc cap).size w.st.mem.nbuf = cap from if_pos rfl]; omega
      · show (if w.st.mem.nbuf = w.st.mem.nbuf ∧ 0 ≤ 0 + i ∧ 0 + i < 0 + bs.length then bs[0 + i - 0]? else _) = _
        rw [if_pos ⟨rfl, by omega, by omega⟩]
        simp
    · intro b i hb _
      have hb : b < w.st.mem.nbuf := hb
      show (if b = w.st.mem.nbuf ∧ _ then _ else if b = w.st.mem.nbuf then _ else w.st.mem.cell b i) = _
      rw [if_neg (fun h => by omega), if_neg (by omega)]; rfl
  | move x y =>
    injection he with he
    subst he
    refine ⟨rfl, did_vars (funext fun z => ?_) (fun z => if z = y then x else z) fun z i hk => ?_⟩
    · show Option.map kind (if z = y then _ else if z = x then none else _) = if z = y then _ else if z = x then none else _
      split
      · rfl
      · split <;> rfl
    · obtain ⟨⟨o, h1⟩, h2, h3⟩ := h
      by_cases e1 : z = y
      · subst e1
        obtain ⟨ty, n, h4, h5⟩ := known_notLent (Unused.notLent hI h3) hk
        rw [if_pos rfl] at h4
        rw [if_pos rfl, if_pos rfl]
        exact ⟨.inl ⟨ty, n, h4, h5⟩, rfl⟩
      · rw [if_neg e1, if_neg e1]
        by_cases e2 : z = x
        · subst e2
          obtain ⟨ty, n, h4, h5⟩ := known_notLent h2 hk
          rw [if_neg e1, if_pos rfl] at h4
          cases h4
        · rw [if_neg e2]
          refine ⟨?_, rfl⟩
          rcases hk with ⟨ty, n, h4, h5⟩ | hk
          · dsimp only at h4
            rw [if_neg e1, if_neg e2] at h4
            exact .inl ⟨ty, n, h4, h5⟩
          · exact .inr hk
  | truncate x n =>
    injection he with he
    subst he
    obtain ⟨⟨o, h1⟩, h2⟩ := h
    have hx : w.plain.vars x = some (.vec { o with buf := w.st.home o.buf }) := plain_var h1
    refine ⟨rfl, did_change (g := fun v => v.map (Client.shorter n)) h2 (funext fun y => ?_) fun o' ho' => ?_⟩
    · split
      · unfold Plain.kinds; rw [hx]; rfl
      · rfl
    · rw [hx] at ho'
      injection ho' with ho'
      subst ho'
      exact ⟨_, hx, Nat.min_le_right .., rfl⟩
  | intoBytes x =>
    injection he with he
    subst he
    obtain ⟨⟨o, h1⟩, h2⟩ := h
    have hx := plain_var h1
    refine ⟨rfl, did_change (g := fun v => v.map Client.intoBytes) h2 (funext fun y => ?_) fun o' ho' => ?_⟩
    · split
      · unfold Plain.kinds; rw [hx]; cases o <;> rfl
      · rfl
    · rw [hx] at ho'
      injection ho' with ho'
      subst ho'
      exact ⟨_, hx, by cases o <;> exact Nat.le_refl _, by cases o <;> rfl⟩
  | drop x =>
    injection he with he
    subst he
    exact ⟨rfl, did_change (g := fun _ => none) h.2 rfl nofun⟩
  | borrow k excl init p n =>
    injection he with he
    subst he
    refine ⟨rfl, did_same (fun _ _ _ _ => rfl) shapes_set fun y i hk => ?_⟩
    rcases hk with hk | ⟨r, ρ, h1, h2, h3, h4, h5⟩
    · exact .inl hk
    · dsimp only at h1
      by_cases e : r = k
      · rw [if_pos e] at h1
        injection h1 with h1
        subst h1
        dsimp only at h2 h3 h4 h5
        rw [← h2]
        exact Inits.known hI (h.2.1 h3) h4 h5
      · rw [if_neg e] at h1
        exact .inr ⟨r, ρ, h1, h2, h3, h4, h5⟩
  | forget k =>
    injection he with he
    subst he
    refine ⟨rfl, did_same (fun _ _ _ _ => rfl) shapes_set fun y i hk => ?_⟩
    rcases hk with hk | ⟨r, ρ, h1, h2⟩
    · exact .inl hk
    · dsimp only at h1
      by_cases e : r = k
      · rw [if_pos e] at h1; cases h1
      · rw [if_neg e] at h1; exact .inr ⟨r, ρ, h1, h2⟩
  | write p bs =>
    have e1 : (storeBytes (w.plain.at' p) bs).run w.plain.mem = if (w.plain.at' p).off + bs.length ≤ w.plain.mem.size (w.plain.at' p).buf then .ok () (w.plain.mem.write (w.plain.at' p) bs) else .ub := rfl
    rw [e1] at he
    split at he
    · rename_i hs
      injection he with he
      subst he
      refine ⟨rfl, did_patch (m := w.plain.mem.write (w.plain.at' p) bs) (ys := bs) hI (CanWrite.within h) (Nat.le_refl _) ⟨hs, fun i hi => ?_⟩ (fun b o hn => if_neg fun hb => ?_) rfl fun _ _ => .inl⟩
      · show (if _ = _ ∧ _ ≤ _ ∧ _ then bs[(w.plain.at' p).off + i - (w.plain.at' p).off]? else _) = _
        rw [if_pos ⟨rfl, by omega, by omega⟩]
        simp
      · exact hn (o - (w.plain.at' p).off) (by omega) ⟨hb.1, by omega⟩
    · cases he

/-! ### Calls with slices -/

open Classical in
noncomputable def callEffect (kinds : Nat → Option (EncodeTy × Nat)) (shapes : Nat → Option Ref) (x : Nat) {α : Type} (c : Call α) (keep : Option Nat) (res : Option (List Byte)) : Effect :=
  ⟨kinds, match keep, res with
    | some k, some ys => if GivesSlice c then fun r => if r = k then some ⟨0, c.exclusive.1.off, ys.length, true, true, x⟩ else shapes r else shapes
    | _, _ => shapes, x, c.exclusive.1.off, res.getD [], id⟩

theorem args_excl (p : Plain) {α : Type} (c : Call α) : (p.args c).exclusive = (p.at' c.exclusive.1, c.exclusive.2) := by cases c <;> rfl

theorem plain_returned {p : Plain} {α : Type} {c : Call α} {xs ys : List Byte} {r : α} (h : CallReturns xs ys (p.args c) r) (hg : GivesSlice c) : returned c r = some (p.at' c.exclusive.1, ys.length) := by
  cases c
  case swap => exact congrArg some (Prod.ext h.1 h.2)
  all_goals first
    | exact hg.elim
    | (rw [show r = _ from h]; rfl)

theorem plain_sees {p : Plain} {α : Type} {c : Call α} {xs ys : List Byte} {r : α} (h : CallReturns xs ys (p.args c) r) : Client.CallSees xs ys (Client.view c r) c := by
  cases c
  case isAscii => exact ⟨r, rfl, h⟩
  case isUtf32le => exact ⟨r, rfl, h⟩
  case swap => exact ⟨_, rfl, h.2⟩
  all_goals first
    | rfl
    | exact congrArg Seen.length (congrArg Slice.len h)

theorem did_kept (hI : RInv M.P w) {α : Type} {c : Call α} {keep : Option Nat} (h : w.CanCall M c keep) {xs : List Byte} {o : Out α} (ho : Computes (w.plain.args c) w.plain.mem xs o)
    (hx : ∀ res, CallMeans xs c.exclusive.2 res c → touched xs c.exclusive.2 res c ≤ (res.getD []).length) {q : Plain} (he : w.plain.kept c keep o = .ok q) :
    ∃ res, CallMeans xs c.exclusive.2 res c ∧ Client.SeesResult xs (Plain.saw c o) c res ∧ Did w.plain q (callEffect w.plain.kinds w.plain.shapes (w.plain.ownerOf c.exclusive.1.buf) c keep res) := by
  obtain ⟨res, hm, ho⟩ := ho
  have et : ∀ d res, touched xs d res (w.plain.args c) = touched xs d res c := fun d res => by cases c <;> rfl
  have em : CallMeans xs c.exclusive.2 res c := by
    rw [args_excl] at hm
    cases c <;> exact hm
  have hin := CanWrite.within h.excl
  have ht := hx res em
  rw [args_excl] at ho
  dsimp only at ho
  rw [et] at ho
  refine ⟨res, em, ?_⟩
  cases o with
  | ub => exact ho.elim
  | panic => cases keep <;> cases he
  | err m =>
    obtain ⟨rfl, h1⟩ := ho
    have : q = ⟨m, w.plain.vars, w.plain.refs⟩ := by cases keep <;> (injection he with he; exact he.symm)
    subst this
    refine ⟨rfl, ?_⟩
    have e : callEffect w.plain.kinds w.plain.shapes (w.plain.ownerOf c.exclusive.1.buf) c keep none = ⟨w.plain.kinds, w.plain.shapes, w.plain.ownerOf c.exclusive.1.buf, c.exclusive.1.off, [], id⟩ := by cases keep <;> rfl
    rw [e]
    refine did_patch hI hin (t := touched xs c.exclusive.2 none c) ht ⟨?_, fun i hi => absurd hi (Nat.not_lt_zero _)⟩ h1.2.2.2 rfl fun _ _ => .inl
    obtain ⟨o, -, -, g1, g2, g3, -⟩ := Within.owner hI hin
    have g4 : (w.plain.at' c.exclusive.1).buf = w.st.home (Spec.ownerOf o).1.buf := (alloc_eq hI hin).trans g1
    rw [h1.2.1, g4, show w.plain.mem = w.st.mem from rfl, g3.size]
    show c.exclusive.1.off + 0 ≤ _
    omega
  | ok r m =>
    obtain ⟨ys, rfl, h1, h2, h3, h4⟩ := ho
    refine ⟨plain_sees h1, ?_⟩
    have plain : Did w.plain ⟨m, w.plain.vars, w.plain.refs⟩ ⟨w.plain.kinds, w.plain.shapes, w.plain.ownerOf c.exclusive.1.buf, c.exclusive.1.off, ys, id⟩ :=
      did_patch hI hin (t := touched xs c.exclusive.2 (some ys) c) ht h3 h4.2.2.2 rfl fun _ _ => .inl
    cases keep with
    | none =>
      injection he with he
      subst he
      exact plain
    | some k =>
      unfold callEffect
      dsimp only
      by_cases hg : GivesSlice c
      · have he : (match returned c r with
          | some (q, n) => Plain.End.ok ⟨m, w.plain.vars, w.plain.setRef k (some ⟨q.buf, q.off, n, true, true, w.plain.ownerOf c.exclusive.1.buf⟩)⟩
          | none => .ok ⟨m, w.plain.vars, w.plain.refs⟩) = .ok q := he
        rw [plain_returned h1 hg] at he
        injection he with he
        subst he
        rw [if_pos hg]
        refine did_patch hI hin (t := touched xs c.exclusive.2 (some ys) c) ht h3 h4.2.2.2 shapes_set fun y i hk => ?_
        rcases hk with hk | ⟨r', ρ, g1, g2, g3, g4, g5⟩
        · exact .inl (.inl hk)
        · dsimp only at g1
          by_cases e : r' = k
          · rw [if_pos e] at g1
            injection g1 with g1
            subst g1
            exact .inr ⟨g2.symm, g4, g5⟩
          · rw [if_neg e] at g1
            exact .inl (.inr ⟨r', ρ, g1, g2, g3, g4, g5⟩)
      · have hn : returned c r = none := by
          have := returned_gives c r
          cases e : returned c r with
          | none => rfl
          | some _ => rw [e] at this; exact absurd (this.1 rfl) hg
        have he : (match returned c r with
          | some (q, n) => Plain.End.ok ⟨m, w.plain.vars, w.plain.setRef k (some ⟨q.buf, q.off, n, true, true, w.plain.ownerOf c.exclusive.1.buf⟩)⟩
          | none => .ok ⟨m, w.plain.vars, w.plain.refs⟩) = .ok q := he
        rw [hn] at he
        injection he with he
        subst he
        rw [if_neg hg]
        exact plain

/-- `par_encode` computes what `encode` does, if it does not panic. -/
theorem par_computes (M : Machine) (k : Nat) (i : Option Isa) (config : Base64.Config) (p q : Ptr) (d : Nat) (m : Mem) {n : Nat} {xs : List Byte} (hn : n = xs.length) (hx : Reads m p xs)
    (hr : (Call.base64Encode i config ⟨p, n⟩ ⟨q, d⟩).RunsOn M) (hb : (Call.base64Encode i config ⟨p, n⟩ ⟨q, d⟩).Borrows M.P m) {o : Out Slice}
    (h : Fork.Outcome (Simd.Base64.par_encode M.P k i config ⟨p, n⟩ ⟨q, d⟩) m o) (hp : o ≠ .panic) : Computes (.base64Encode i config ⟨p, n⟩ ⟨q, d⟩) m xs o := by
  subst hn
  obtain ⟨-, hw, hP, hP', ho⟩ := id hb
  obtain ⟨hi, url, pad, hv⟩ := id hr
  have hi := Dispatch.Runs.ne_sse2 hi (by decide)
  have hP : xs.length ≤ M.P.isizeMax := hP
  have ho : NoOverlap p xs.length q d := ho
  by_cases hk : k * 4096 ≤ M.P.usizeMax
  · by_cases hd : (Spec.base64 url pad xs).length ≤ d
    · obtain ⟨m', hw', ho'⟩ := Base64.C62_par_encode M.P hi hv m p q xs d k hx hw ho hk hP hd
      exact computes_ok ((ho' o).1 h) ⟨url, pad, hv, (fits_pos hd).symm⟩ rfl (hw'.done hw hd)
    · have e := (Base64.C62_short M.P hi hv m p q xs d k hk hP (by omega) o).1 h
      split at e
      · exact absurd e hp
      · exact computes_err e ⟨url, pad, hv, (fits_neg hd).symm⟩ (.refl _ _ _)
  · have e1 : M.P.mulU k 4096 = none := if_neg hk
    exact absurd ((fork_panic (by unfold Simd.Base64.par_encode; rw [e1]; rfl) o).1 h) hp

end Simd.Lend
