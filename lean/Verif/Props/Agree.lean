import Verif.Lemmas.Agree
import Verif.Props.TreeUse
import Verif.Props.LendPlain
/-
C100: programs with references do the same with borrow stacks, with borrow trees and over plain memory.
-/
namespace Simd
open Spec
open Client (Seen)

namespace Agree

/-- A view in which names stand for the tags of what they name, and references are younger than the variables they point into. -/
structure Good (v : View) : Prop where
  var : ∀ x o, v.vars x = some o → v.name x = (Spec.ownerOf o).1.buf
  ref : ∀ r ρ, v.refs r = some ρ → v.name r = ρ.tag
  older : ∀ x o r ρ, v.vars x = some o → v.refs r = some ρ → v.home ρ.tag = v.home (Spec.ownerOf o).1.buf → (Spec.ownerOf o).1.buf < ρ.tag

/-- References were made in the same order. -/
def Order (v v' : View) : Prop := ∀ r s ρ σ ρ' σ', v.refs r = some ρ → v.refs s = some σ → v'.refs r = some ρ' → v'.refs s = some σ' → (ρ.tag ≤ σ.tag ↔ ρ'.tag ≤ σ'.tag)

theorem Order.symm {v v' : View} (h : Order v v') : Order v' v := fun r s ρ σ ρ' σ' h1 h2 h3 h4 => (h r s ρ' σ' ρ σ h3 h4 h1 h2).symm

theorem some_of_map {α β γ : Type} {f : α → γ} {g : β → γ} {a : Option α} {b : Option β} {x : α} (h : a.map f = b.map g) (ha : a = some x) : ∃ y, b = some y ∧ f x = g y := by
  subst ha
  cases b with
  | none => cases h
  | some y => exact ⟨y, rfl, Option.some.inj h⟩

theorem alike_of {v v' : View} (hg : Good v) (hg' : Good v') (hv : ∀ x, (v.vars x).map (Moves.move v.home) = (v'.vars x).map (Moves.move v'.home))
    (hr : ∀ r, (v.refs r).map (fun ρ => ({ ρ with tag := v.home ρ.tag } : Lend.Ref)) = (v'.refs r).map fun ρ => { ρ with tag := v'.home ρ.tag }) (ho : Order v v') : Alike v v' := by
  refine ⟨fun x o h => some_of_map (hv x) h, fun r ρ h => ?_, fun x o h => some_of_map (hv x).symm h, fun r ρ h => ?_, fun n hn => ?_, fun r ρ ρ' n h1 h2 hn hh hle => ?_⟩
  · obtain ⟨ρ', h1, h2⟩ := some_of_map (hr r) h; exact ⟨ρ', h1, h2⟩
  · obtain ⟨ρ', h1, h2⟩ := some_of_map (hr r).symm h; exact ⟨ρ', h1, h2⟩
  · rcases hn with ⟨o, h1⟩ | ⟨ρ, h1⟩
    · obtain ⟨o', h2, h3⟩ := some_of_map (hv n) h1
      rw [hg.var n o h1, hg'.var n o' h2, ← Lend.move_owner v.home o, h3, Lend.move_owner v'.home o']
    · obtain ⟨ρ', h2, h3⟩ := some_of_map (hr n) h1
      rw [hg.ref n ρ h1, hg'.ref n ρ' h2]
      exact (ref_same h3).1
  · rcases hn with ⟨o, h3⟩ | ⟨σ, h3⟩
    · rw [hg.var n o h3] at hh hle
      exact absurd hle (Nat.not_le.2 (hg.older n o r ρ h3 h1 hh))
    · obtain ⟨σ', h4, -⟩ := some_of_map (hr n) h3
      rw [hg.ref n σ h3] at hle
      rw [hg'.ref n σ' h4]
      exact (ho r n ρ σ ρ' σ' h1 h3 h2 h4).1 hle

variable {M : Machine} {P : Plat} {w w1 : Lend.World} {u u1 : Tree.Use.World}

theorem good_stacks (hI : Lend.RInv P w) : Good (ofStacks w) := by
  refine ⟨fun x o h => (hI.var_name h).1, fun r ρ h => (Lend.ref_name h).1, fun x o r ρ hx hr hh => ?_⟩
  obtain ⟨o', h1, h2⟩ := hI.refs r ρ hr
  obtain rfl := hI.base.apart _ _ _ _ h1 hx (h2.home.symm.trans hh)
  have e := h1.symm.trans hx
  cases e
  exact h2.older

theorem good_trees (hI : Tree.Use.Inv P u) : Good (ofTrees u) := by
  refine ⟨fun x o h => (hI.var_name h).1, fun r ρ h => (Tree.Use.ref_name h).1, fun x o r ρ hx hr hh => ?_⟩
  obtain ⟨o', h1, h2⟩ := hI.refs r ρ hr
  obtain rfl := hI.apart _ _ _ _ h1 hx (h2.home.symm.trans hh)
  have e := h1.symm.trans hx
  cases e
  exact h2.older

/-- The two worlds differ only in tags, borrow stacks and borrow trees. -/
structure Same (w : Lend.World) (u : Tree.Use.World) : Prop where
  plain : w.plain = u.plain
  order : Order (ofStacks w) (ofTrees u)

theorem Same.alike (h : Same w u) (hI : Lend.RInv P w) (hJ : Tree.Use.Inv P u) : Alike (ofStacks w) (ofTrees u) :=
  alike_of (good_stacks hI) (good_trees hJ) (fun x => congrFun (congrArg Lend.Plain.vars h.plain) x) (fun r => congrFun (congrArg Lend.Plain.refs h.plain) r) h.order

theorem Same.alike' (h : Same w u) (hI : Lend.RInv P w) (hJ : Tree.Use.Inv P u) : Alike (ofTrees u) (ofStacks w) :=
  alike_of (good_trees hJ) (good_stacks hI) (fun x => (congrFun (congrArg Lend.Plain.vars h.plain) x).symm) (fun r => (congrFun (congrArg Lend.Plain.refs h.plain) r).symm) h.order.symm

/-- A step is allowed in both worlds or in none. -/
theorem Same.legal (h : Same w u) (hI : Lend.RInv M.P w) (hJ : Tree.Use.Inv M.P u) (op : Tree.Use.Step) : Lend.Legal M w op.op ↔ op.Legal M u := by
  rw [legal_stacks, legal_trees]
  exact ⟨(h.alike hI hJ).legal, (h.alike' hI hJ).legal⟩

/-! ### The order in which references are made -/

/-- The reference that a step may make. -/
def made : Lend.Op → Option Nat
  | .borrow k .. => some k
  | .call _ keep | .par _ _ _ _ _ keep => keep
  | _ => none

/-- What a step does to the references: others stay, or are gone; a new one has a tag that was not given out before. -/
def Fresh (op : Lend.Op) (n : Nat) (refs refs' : Nat → Option Lend.Ref) : Prop := ∀ r ρ, refs' r = some ρ → made op ≠ some r ∧ refs r = some ρ ∨ made op = some r ∧ n ≤ ρ.tag

theorem fresh_same {op : Lend.Op} {n : Nat} {refs refs' : Nat → Option Lend.Ref} (e : refs' = refs) (h : ∀ k, made op = some k → refs k = none) : Fresh op n refs refs' := fun r ρ hr => by
  subst e
  exact .inl ⟨fun hm => (nomatch (h r hm).symm.trans hr), hr⟩

theorem fresh_make {op : Lend.Op} {n k : Nat} {refs refs' : Nat → Option Lend.Ref} {σ : Lend.Ref} (e : refs' = fun r => if r = k then some σ else refs r) (h : made op = some k) (hn : n ≤ σ.tag) : Fresh op n refs refs' := fun r ρ hr => by
  subst e
  dsimp only at hr
  split at hr
  · rename_i e
    cases hr
    exact .inr ⟨by rw [h, e], hn⟩
  · rename_i e
    exact .inl ⟨by rw [h]; exact fun e' => e (Option.some.inj e').symm, hr⟩

theorem fresh_forget {k n : Nat} {refs : Nat → Option Lend.Ref} : Fresh (.forget k) n refs fun r => if r = k then none else refs r := fun r ρ hr => by
  dsimp only at hr
  split at hr
  · cases hr
  · exact .inl ⟨nofun, hr⟩

theorem kept_stacks {op : Lend.Op} {α : Type} {c : Call α} {keep : Option Nat} {r : Borrow.Result α} (hm : made op = keep) (hk : ∀ k, keep = some k → w.Unused k) (hn : ∀ a s, r = .ok a s → w.st.next ≤ s.next)
    (he : w.kept c keep r = .ok w1) : Fresh op w.st.next w.refs w1.refs := by
  have same : w1.refs = w.refs → Fresh op w.st.next w.refs w1.refs := fun e => fresh_same e fun k h => (hk k (hm ▸ h)).2
  cases r with
  | panic | ub => cases keep <;> cases he
  | err s => exact same (Lend.after_refs (α := α) (r := .err s) (by cases keep <;> exact he))
  | ok a s =>
    cases keep with
    | none => exact same (Lend.after_refs (r := .ok a s) he)
    | some k =>
      replace he : (match Lend.returned c a with | some (p, n) => Lend.World.make { w with st := s } k true true (w.ownerOf c.exclusive.1.buf) p n | none => .ok { w with st := s }) = Lend.End.ok w1 := he
      cases e : Lend.returned c a with
      | none => rw [e] at he; injection he with he; exact same (by rw [← he])
      | some pn =>
        rw [e] at he
        obtain ⟨s', rfl, -⟩ := Lend.make_eq he
        exact fresh_make rfl hm (hn a s rfl)

theorem kept_trees {op : Lend.Op} {α : Type} {c : Call α} {keep : Option Nat} {r : Tree.Result α} (hm : made op = keep) (hk : ∀ k, keep = some k → u.Unused k) (hn : ∀ a s, r = .ok a s → u.st.next ≤ s.next)
    (he : u.kept c keep r = .ok u1) : Fresh op u.st.next u.refs u1.refs := by
  have same : u1.refs = u.refs → Fresh op u.st.next u.refs u1.refs := fun e => fresh_same e fun k h => (hk k (hm ▸ h)).2
  cases r with
  | panic | ub => cases keep <;> cases he
  | err s => exact same (Tree.Use.after_refs (α := α) (r := .err s) (f := fun _ => u.vars) (by cases keep <;> exact he))
  | ok a s =>
    cases keep with
    | none => exact same (Tree.Use.after_refs (r := .ok a s) (f := fun _ => u.vars) he)
    | some k =>
      replace he : (match Lend.returned c a with | some (p, n) => Tree.Use.World.make { u with st := s } k true true (u.ownerOf c.exclusive.1.buf) p n | none => .ok { u with st := s }) = Tree.Use.End.ok u1 := he
      cases e : Lend.returned c a with
      | none => rw [e] at he; injection he with he; exact same (by rw [← he])
      | some pn =>
        rw [e] at he
        obtain ⟨s', rfl, -⟩ := Tree.Use.make_eq he
        exact fresh_make rfl hm (hn a s rfl)

theorem fresh_stacks (hI : Lend.RInv M.P w) {op : Lend.Op} (h : Lend.Legal M w op) (he : Lend.Exec M.P w op (.ok w1)) : Fresh op w.st.next w.refs w1.refs := by
  generalize e : Lend.End.ok w1 = e1 at he
  cases he with
  | new | move | truncate | intoBytes | drop | heap => exact fresh_same (Lend.owned_refs e.symm) nofun
  | read | write | ext => exact fresh_same (Lend.after_refs e.symm) nofun
  | borrow k excl init p n =>
    obtain ⟨s', rfl, -⟩ := Lend.make_eq e.symm
    exact fresh_make rfl rfl (Nat.le_refl _)
  | forget k => injection e with e; subst e; exact fresh_forget
  | call c keep =>
    obtain ⟨hr, hr', hl, hb⟩ := Lend.World.CanCall.borrows hI h
    have ho := C85_call M (w.args c) w.st hr hI.base.sound hl hb
    refine kept_stacks rfl h.keep (fun a s e => ?_) e.symm
    unfold Obeys at ho
    rw [e] at ho
    split at ho <;> first | (cases ‹Borrow.Result.ok a s = _›; exact ho.2.1.next) | (cases ‹Borrow.Result.ok a s = _›) | exact ho.elim
  | par threads i config src dst keep r hrun =>
    obtain ⟨hr, hr', hl, hb⟩ := Lend.World.CanCall.borrows hI h
    obtain ⟨o, -, h2, -⟩ := C91_par_encode M threads i config _ _ w.st hr hI.base.sound hl hb
    have g := h2 r hrun
    refine kept_stacks rfl (Lend.World.CanCall.keep h) (fun a s e => ?_) e.symm
    subst e
    cases o <;> first | exact g.elim | exact g.2.1.next

theorem fresh_trees (hI : Tree.Use.Inv M.P u) {op : Tree.Use.Step} (h : op.Legal M u) (he : Tree.Use.Exec M.P u op (.ok u1)) : Fresh op.op u.st.next u.refs u1.refs := by
  generalize e : Tree.Use.End.ok u1 = e1 at he
  cases he with
  | ext c => exact fresh_same (Tree.Use.after_refs e.symm) nofun
  | par threads i config src dst keep r hrun =>
    replace h : u.CanCall M (.base64Encode i config src dst) keep := h
    obtain ⟨hr, hr', hl, hb⟩ := h.borrows hI
    obtain ⟨o, -, h2, -⟩ := Tree.C96_par_encode M threads i config _ _ u.st hr hI.sound hl hb
    have g := h2 r hrun
    refine kept_trees rfl h.keep (fun a s e => ?_) e.symm
    subst e
    cases o <;> first | exact g.elim | exact g.2.1.next
  | one op =>
    replace h : Tree.Use.Legal M u op := h
    cases op with
    | new | heap | read | write => exact fresh_same (Tree.Use.after_refs e.symm) nofun
    | move | truncate | intoBytes => injection e with e; subst e; exact fresh_same rfl nofun
    | drop x =>
      obtain ⟨⟨o, ho⟩, -⟩ := h
      have he : (match u.vars x with | some o => u.after (Tree.dropOwned o u.st) fun _ => u.set x none | none => .ub) = Tree.Use.End.ok u1 := e.symm
      rw [ho] at he
      exact fresh_same (Tree.Use.after_refs he) nofun
    | borrow k excl init p n =>
      obtain ⟨s', rfl, -⟩ := Tree.Use.make_eq e.symm
      exact fresh_make rfl rfl (Nat.le_refl _)
    | forget k => injection e with e; subst e; exact fresh_forget
    | call c keep =>
      obtain ⟨hr, hr', hl, hb⟩ := Tree.Use.World.CanCall.borrows hI h
      have ho := Tree.C93_call M (u.args c) u.st hr hI.sound hl hb
      refine kept_trees rfl h.keep (fun a s e => ?_) e.symm
      unfold Tree.Obeys at ho
      rw [e] at ho
      split at ho <;> first | (cases ‹Tree.Result.ok a s = _›; exact ho.2.1.next) | (cases ‹Tree.Result.ok a s = _›) | exact ho.elim

/-- The order stays the same. -/
theorem order_step {v v' v1 v1' : View} {op : Lend.Op} {n n' : Nat} (h : Order v v') (hn : ∀ r ρ, v.refs r = some ρ → ρ.tag < n) (hn' : ∀ r ρ, v'.refs r = some ρ → ρ.tag < n') (hf : Fresh op n v.refs v1.refs)
    (hf' : Fresh op n' v'.refs v1'.refs) : Order v1 v1' := fun r s ρ σ ρ' σ' h1 h2 h3 h4 => by
  rcases hf r ρ h1 with ⟨a1, b1⟩ | ⟨a1, b1⟩ <;> rcases hf' r ρ' h3 with ⟨a3, b3⟩ | ⟨a3, b3⟩ <;> first | exact absurd a1 a3 | exact absurd a3 a1 | skip
  all_goals rcases hf s σ h2 with ⟨a2, b2⟩ | ⟨a2, b2⟩ <;> rcases hf' s σ' h4 with ⟨a4, b4⟩ | ⟨a4, b4⟩ <;> first | exact absurd a2 a4 | exact absurd a4 a2 | skip
  · exact h r s ρ σ ρ' σ' b1 b2 b3 b4
  · have := hn r ρ b1; have := hn' r ρ' b3
    exact ⟨fun _ => by omega, fun _ => by omega⟩
  · have := hn s σ b2; have := hn' s σ' b4
    exact ⟨fun _ => by omega, fun _ => by omega⟩
  · obtain rfl : r = s := Option.some.inj (a1.symm.trans a2)
    rw [h1] at h2; cases h2
    rw [h3] at h4; cases h4
    exact ⟨fun _ => Nat.le_refl _, fun _ => Nat.le_refl _⟩

theorem Same.step (h : Same w u) (hI : Lend.RInv M.P w) (hJ : Tree.Use.Inv M.P u) {op : Tree.Use.Step} (hl : op.Legal M u) (he : Lend.Exec M.P w op.op (.ok w1)) (he' : Tree.Use.Exec M.P u op (.ok u1))
    (hp : w1.plain = u1.plain) : Same w1 u1 :=
  ⟨hp, order_step h.order (fun r ρ hr => (hI.refs r ρ hr).elim fun _ h => h.2.tag) (fun r ρ hr => (hJ.refs r ρ hr).elim fun _ h => h.2.tag) (fresh_stacks hI ((h.legal hI hJ op).2 hl) he) (fresh_trees hJ hl he')⟩

/-- Every step of one kind is one of the other. -/
theorem op_onto (op : Lend.Op) : ∃ op' : Tree.Use.Step, op'.op = op := by
  cases op with
  | new x text bs cap => exact ⟨.one (.new x text bs cap), rfl⟩
  | move x y => exact ⟨.one (.move x y), rfl⟩
  | truncate x n => exact ⟨.one (.truncate x n), rfl⟩
  | intoBytes x => exact ⟨.one (.intoBytes x), rfl⟩
  | drop x => exact ⟨.one (.drop x), rfl⟩
  | borrow k excl init p n => exact ⟨.one (.borrow k excl init p n), rfl⟩
  | forget k => exact ⟨.one (.forget k), rfl⟩
  | read p n => exact ⟨.one (.read p n), rfl⟩
  | write p bs => exact ⟨.one (.write p bs), rfl⟩
  | call c keep => exact ⟨.one (.call c keep), rfl⟩
  | par threads i config src dst keep => exact ⟨.par threads i config src dst keep, rfl⟩
  | heap x c => exact ⟨.one (.heap x c), rfl⟩
  | ext c => exact ⟨.ext c, rfl⟩

theorem reaches_of_run {p : Lend.Program} {h : List Seen} (hr : Tree.Use.Run M p h u) : Tree.Use.Reaches M u := by
  induction hr with
  | start => exact .start
  | step _ _ hl hs ih => exact ih.step hl (Tree.Use.exec_of_shows hs)

end Agree

/-- C100, a step: what a step that safe Rust allows does with borrow trees, and what is seen of it, is what it does, and what is seen of it, over plain memory, with the functions without references. -/
theorem C100_step (M : Machine) {u : Tree.Use.World} (hr : Tree.Use.Reaches M u) {op : Tree.Use.Step} (hl : op.Legal M u) (v : Seen) (e : Lend.Plain.End) :
    (∃ e', Tree.Use.Shows M.P u op v e' ∧ e'.plain = e) ↔ Lend.Plain.Exec M.P u.plain op.op v e := by
  have hI := Tree.Use.reaches_inv hr
  refine ⟨fun ⟨e', h, he⟩ => he ▸ Tree.Use.shows_plain hI hl h, fun h => ?_⟩
  obtain ⟨e', he⟩ := Tree.Use.some_exec hI hl
  obtain ⟨v', hv⟩ := Tree.Use.shows_of_exec he
  obtain ⟨rfl, rfl⟩ := Tree.Use.plain_unique hI hl (Tree.Use.shows_plain hI hl hv) h
  exact ⟨e', hv, rfl⟩

namespace Agree

theorem trees_of_stacks {M : Machine} {p : Lend.Program} {h : List Seen} {w : Lend.World} (hr : Lend.Run M p h w) : ∃ u, Tree.Use.Run M p h u ∧ Same w u := by
  induction hr with
  | start => exact ⟨.start, .start, rfl, fun r s ρ σ ρ' σ' h => by cases h⟩
  | @step h w w1 op v h1 h2 h3 h4 ih =>
    obtain ⟨u, hu, hs⟩ := ih
    obtain ⟨op, rfl⟩ := op_onto op
    have hI := Lend.reaches_rinv (Lend.reaches_of_run h1)
    have hJ := Tree.Use.reaches_inv (reaches_of_run hu)
    have hl := (hs.legal hI hJ op).1 h3
    have a := (C99_step M (Lend.reaches_of_run h1) h3 _ _).1 ⟨_, h4, rfl⟩
    rw [hs.plain] at a
    obtain ⟨e', g1, g2⟩ := (C100_step M (reaches_of_run hu) hl _ _).2 a
    cases e' with
    | ok u1 =>
      injection g2 with g2
      exact ⟨u1, hu.step h2 hl g1, hs.step hI hJ hl (Lend.exec_of_shows h4) (Tree.Use.exec_of_shows g1) g2.symm⟩
    | panic | ub => cases g2

theorem stacks_of_trees {M : Machine} {p : Lend.Program} {h : List Seen} {u : Tree.Use.World} (hr : Tree.Use.Run M p h u) : ∃ w, Lend.Run M p h w ∧ Same w u := by
  induction hr with
  | start => exact ⟨.start, .start, rfl, fun r s ρ σ ρ' σ' h => by cases h⟩
  | @step h u u1 op v h1 h2 h3 h4 ih =>
    obtain ⟨w, hw, hs⟩ := ih
    have hI := Lend.reaches_rinv (Lend.reaches_of_run hw)
    have hJ := Tree.Use.reaches_inv (reaches_of_run h1)
    have hl := (hs.legal hI hJ op).2 h3
    have a := (C100_step M (reaches_of_run h1) h3 _ _).1 ⟨_, h4, rfl⟩
    rw [← hs.plain] at a
    obtain ⟨e', g1, g2⟩ := (C99_step M (Lend.reaches_of_run hw) hl _ _).2 a
    cases e' with
    | ok w1 =>
      injection g2 with g2
      exact ⟨w1, hw.step h2 hl g1, hs.step hI hJ h3 (Lend.exec_of_shows g1) (Tree.Use.exec_of_shows h4) g2⟩
    | panic | ub => cases g2

theorem run_nil {M : Machine} {p : Lend.Program} {u : Tree.Use.World} (h : Tree.Use.Run M p [] u) : u = .start := by
  generalize e : ([] : List Seen) = l at h
  cases h with
  | start => rfl
  | step => exact absurd e (by simp)

theorem run_snoc {M : Machine} {p : Lend.Program} {h : List Seen} {v : Seen} {u' : Tree.Use.World} (hr : Tree.Use.Run M p (h ++ [v]) u') :
    ∃ u op, Tree.Use.Run M p h u ∧ p h = some op.op ∧ op.Legal M u ∧ Tree.Use.Shows M.P u op v (.ok u') := by
  generalize e : h ++ [v] = l at hr
  cases hr with
  | start => exact absurd e (by simp)
  | step h1 h2 h3 h4 =>
    obtain ⟨e1, e2⟩ := List.append_inj' e rfl
    cases e2
    subst e1
    exact ⟨_, _, h1, h2, h3, h4⟩

theorem op_inj {op op' : Tree.Use.Step} (h : op.op = op'.op) : op = op' := by
  rcases op with op | _ | _ <;> rcases op' with op' | _ | _ <;> first | (cases op <;> cases op' <;> cases h <;> rfl) | (cases op <;> cases h) | (cases op' <;> cases h) | (cases h; rfl) | cases h

/-- As many steps under both disciplines lead to the same. -/
theorem same_of_runs {M : Machine} {p : Lend.Program} {h h' : List Seen} {w : Lend.World} {u : Tree.Use.World} (hr : Lend.Run M p h w) (hr' : Tree.Use.Run M p h' u) (hl : h.length = h'.length) : h = h' ∧ Same w u := by
  induction hr generalizing h' u with
  | start =>
    obtain rfl := List.length_eq_zero_iff.1 hl.symm
    rw [run_nil hr']
    exact ⟨rfl, rfl, fun r s ρ σ ρ' σ' h => by cases h⟩
  | @step h w w1 op v h1 h2 h3 h4 ih =>
    rcases List.eq_nil_or_concat h' with rfl | ⟨k, v', rfl⟩
    · simp at hl
    · rw [List.concat_eq_append] at hr' hl ⊢
      obtain ⟨u0, op', g1, g2, g3, g4⟩ := run_snoc hr'
      obtain ⟨rfl, hs⟩ := ih g1 (by simpa using hl)
      obtain rfl : op = op'.op := Option.some.inj (h2.symm.trans g2)
      have hI := Lend.reaches_rinv (Lend.reaches_of_run h1)
      have hJ := Tree.Use.reaches_inv (reaches_of_run g1)
      have a := Lend.shows_plain hI h3 h4
      have b := Tree.Use.shows_plain hJ g3 g4
      rw [hs.plain] at a
      obtain ⟨rfl, e⟩ := Tree.Use.plain_unique hJ g3 a b
      injection e with e
      exact ⟨rfl, hs.step hI hJ g3 (Lend.exec_of_shows h4) (Tree.Use.exec_of_shows g4) e⟩

end Agree

open Agree

/-- C100, an execution with borrow trees is one over plain memory: what the program got to know, and what its variables, references and memory are. -/
theorem C100_refines (M : Machine) {p : Lend.Program} {h : List Seen} {u : Tree.Use.World} (hr : Tree.Use.Run M p h u) : Lend.Plain.Run M.P p h u.plain := by
  induction hr with
  | start => exact .start
  | step h1 h2 h3 h4 ih => exact ih.step h2 ((C100_step M (reaches_of_run h1) h3 _ _).1 ⟨_, h4, rfl⟩)

/-- C100, the same executions: what a program can get to know, and have in its variables, references and memory, with borrow stacks, it can with borrow trees, and the other way round. -/
theorem C100_same (M : Machine) (p : Lend.Program) (h : List Seen) (m : Lend.Plain) : (∃ w, Lend.Run M p h w ∧ w.plain = m) ↔ ∃ u, Tree.Use.Run M p h u ∧ u.plain = m := by
  constructor
  · rintro ⟨w, hw, rfl⟩
    obtain ⟨u, hu, hs⟩ := trees_of_stacks hw
    exact ⟨u, hu, hs.plain.symm⟩
  · rintro ⟨u, hu, rfl⟩
    obtain ⟨w, hw, hs⟩ := stacks_of_trees hu
    exact ⟨w, hw, hs.plain⟩

/-- C100, two executions, one with borrow stacks and one with borrow trees: after as many steps the program got to know the same and has the same variables, references and memory; safe Rust allows the same steps next; and each of these shows and
leaves the same, or panics, in both. -/
theorem C100_agree (M : Machine) {p : Lend.Program} {h h' : List Seen} {w : Lend.World} {u : Tree.Use.World} (hr : Lend.Run M p h w) (hr' : Tree.Use.Run M p h' u) (hl : h.length = h'.length) :
    h = h' ∧ w.plain = u.plain ∧ ∀ op : Tree.Use.Step, (Lend.Legal M w op.op ↔ op.Legal M u) ∧
      (op.Legal M u → ∀ v m, (∃ e, Lend.Shows M.P w op.op v e ∧ e.plain = m) ↔ ∃ e, Tree.Use.Shows M.P u op v e ∧ e.plain = m) := by
  obtain ⟨rfl, hs⟩ := same_of_runs hr hr' hl
  have hI := Lend.reaches_rinv (Lend.reaches_of_run hr)
  have hJ := Tree.Use.reaches_inv (reaches_of_run hr')
  refine ⟨rfl, hs.plain, fun op => ⟨hs.legal hI hJ op, fun hop v m => ?_⟩⟩
  rw [C99_step M (Lend.reaches_of_run hr) ((hs.legal hI hJ op).2 hop) v m, C100_step M (reaches_of_run hr') hop v m, hs.plain]

/-- C100, two executions with borrow trees: a program gets to know the same after as many steps, whatever the threads of `par_encode` do when, and has the same variables, references and memory. -/
theorem C100_deterministic (M : Machine) {p : Lend.Program} {h h' : List Seen} {u u' : Tree.Use.World} (hr : Tree.Use.Run M p h u) (hr' : Tree.Use.Run M p h' u') (hl : h.length = h'.length) : h = h' ∧ u.plain = u'.plain := by
  obtain ⟨w, hw, hs⟩ := stacks_of_trees hr
  obtain ⟨h1, h2, -⟩ := C100_agree M hw hr' hl
  exact ⟨h1, hs.plain.symm.trans h2⟩

/-- C100, the steps of the two disciplines are the same ones. -/
theorem C100_steps (op : Lend.Op) : ∃ op' : Tree.Use.Step, op'.op = op ∧ ∀ op'', op''.op = op → op'' = op' := by
  obtain ⟨op', rfl⟩ := op_onto op
  exact ⟨op', rfl, fun _ => op_inj⟩

namespace Agree

/-- A program that keeps what `par_encode` handed back does so with borrow trees too: there, too, the reference it keeps lends four bytes; and each execution of the program with borrow stacks gets to know the same. -/
example : ∃ p h u, Tree.Use.Run sender p h u ∧ h ≠ [] ∧ (∃ ρ, u.plain.refs 3 = some ρ ∧ ρ.len = 4) ∧ ∀ h' w', Lend.Run sender p h' w' → h'.length = h.length → h' = h ∧ w'.plain = u.plain := by
  obtain ⟨w, w', ρ3, h1, h2, h3, h4, h5, -⟩ := Lend.at_par
  obtain ⟨ops, h, hl, hr⟩ := Lend.run_of_reaches (h1.step h2 h3)
  obtain ⟨u, hu, he⟩ := (C100_same sender _ h _).1 ⟨w', hr [], rfl⟩
  refine ⟨_, h, u, hu, ?_, ⟨_, (congrArg (fun m : Lend.Plain => m.refs 3) he).trans (Lend.plain_ref h4), h5⟩, fun h' v hr' hl' => ?_⟩
  · rintro rfl
    have := Lend.run_nil (hr [])
    rw [this] at h4
    cases h4
  · obtain ⟨h1, h2, -⟩ := C100_agree sender hr' hu hl'
    exact ⟨h1, h2⟩

/-- With too many threads it panics with borrow trees too, where the step is as allowed as with borrow stacks. -/
example : ∃ p h u op, Tree.Use.Run sender p h u ∧ op.Legal sender u ∧ ∃ v, Tree.Use.Shows sender.P u op v .panic := by
  obtain ⟨w, w', ρ3, h1, h2, -⟩ := Lend.at_par
  obtain ⟨ops, h, hl, hr⟩ := Lend.run_of_reaches h1
  obtain ⟨u, hu, he⟩ := (C100_same sender _ h _).1 ⟨w, hr [], rfl⟩
  let op : Tree.Use.Step := .par (sender.P.usizeMax + 1) (some .avx2) Base64.STANDARD ⟨⟨2, 0⟩, 3⟩ ⟨⟨1, 0⟩, 4⟩ (some 3)
  have hop : op.Legal sender u := ((C100_agree sender (hr []) hu rfl).2.2 op).1.1 h2
  have e1 : sender.P.mulU (sender.P.usizeMax + 1) 4096 = none := if_neg (by omega)
  obtain ⟨e', hs, he⟩ := (C100_step sender (reaches_of_run hu) hop _ _).2 (.par _ _ _ _ _ _ .panic ((Borrow.fork_panic (by unfold Simd.Base64.par_encode; rw [e1]; rfl) _).2 rfl))
  have he : e' = .panic := by cases e' <;> first | rfl | cases he
  subst he
  exact ⟨_, h, u, op, hu, hop, _, hs⟩

end Agree

end Simd
