import Verif.Lemmas.TreeFrame
import Verif.Model.TreePar
/-
Threads with borrow trees: what holds of the trees at any time during a parallel section, and how accesses, new references and returns keep it.
-/
namespace Simd.Tree
open Spec

/-- What is fixed for a parallel section: the state at the start, how its bytes are lent to the section, and the bytes to be written. -/
structure Goal where
  start : State
  loan : Nat → Nat → Loan
  target : Nat → Nat → Simd.Cell

/-- Bytes that all threads may read. -/
def Goal.Shared (g : Goal) (b i : Nat) : Prop := ∃ t, g.loan b i = .shared t
/-- Bytes that are to be written. -/
def Goal.Mine (g : Goal) (b i : Nat) : Prop := ∃ t, g.loan b i = .excl t

theorem Goal.apart {g : Goal} {b i : Nat} (h : g.Shared b i) (h' : g.Mine b i) : False := by
  obtain ⟨t, h⟩ := h
  obtain ⟨t', h'⟩ := h'
  rw [h] at h'; cases h'

/-- The section may do with the bytes what they are lent for. -/
structure Goal.Ok (g : Goal) : Prop where
  sound : Sound g.start
  has : ∀ b i t, Of t (g.loan b i) → g.start.Has b t
  read : ∀ b i t, g.loan b i = .shared t → Allowed g.start false t b i
  write : ∀ b i t, g.loan b i = .excl t → Allowed g.start true t b i

/-- A tag of allocation `b` that was made in the section. -/
def Goal.New (g : Goal) (s : State) (b u : Nat) : Prop := g.start.next ≤ u ∧ s.Has b u

/-- To the tags at the start, `u` is like `t`. -/
def Goal.Line (g : Goal) (s : State) (t u : Nat) : Prop := ∀ v, v < g.start.next → s.up u v = g.start.up t v

/-- The tag `u` was made from the tag that was lent, for what it was lent. -/
def Goal.Held (g : Goal) (s : State) (b i u : Nat) : Prop :=
  ∃ t, g.Line s t u ∧ (g.loan b i = .shared t ∧ (s.cell b i u).perm = .frozen ∨ g.loan b i = .excl t ∧ ((s.cell b i u).perm = .reserved false ∨ (s.cell b i u).perm = .active))

/-- What holds at any time: new tags that were made for a byte that is to be written are on one path of the tree, active ones above the others. -/
structure Good (g : Goal) (s : State) : Prop where
  sound : Sound s
  next : g.start.next ≤ s.next
  guard : ∃ l, s.guard = l :: g.start.guard ∧ ∀ t ∈ l, g.start.next ≤ t ∧ t < s.next
  home : ∀ t, t < g.start.next → s.home t = g.start.home t
  up : ∀ t, t < g.start.next → s.up t = g.start.up t
  size : s.mem.size = g.start.mem.size
  nbuf : s.mem.nbuf = g.start.mem.nbuf
  freed : s.freed = g.start.freed
  mem : ∀ b i, ¬ g.Mine b i → s.mem.cell b i = g.start.mem.cell b i
  old : ∀ b i, CellAfter g.start (g.loan b i) b (g.start.cell b i) (s.cell b i)
  new : ∀ b i u, g.New s b u → (s.cell b i u).acc = true → g.Held s b i u
  above : ∀ b i u v, g.New s b u → (s.cell b i u).acc = true → s.up u v = true → g.start.next ≤ v → (s.cell b i v).acc = true
  chain : ∀ b i, g.Mine b i → ∀ u v, g.New s b u → g.New s b v → (s.cell b i u).acc = true → (s.cell b i v).acc = true → s.up u v = true ∨ s.up v u = true
  active : ∀ b i, g.Mine b i → ∀ u v, g.New s b u → (s.cell b i u).acc = true → s.up u v = true → g.start.next ≤ v → (s.cell b i u).perm = .active → (s.cell b i v).perm = .active

variable {g : Goal} {W W' X Y : Nat → Nat → Prop} {s s' s1 s2 : State} {p q P Q : Ptr} {n m : Nat}

theorem Good.prot_old (h : Good g s) {u : Nat} (hu : u < g.start.next) : s.prot u = g.start.prot u := by
  obtain ⟨l, e, hl⟩ := h.guard
  unfold State.prot
  rw [e, List.any_cons]
  cases hc : l.contains u
  · rfl
  · have := hl u (List.contains_iff_mem.1 hc); omega

theorem Good.has_old (h : Good g s) {b u : Nat} (hu : u < g.start.next) : s.Has b u ↔ g.start.Has b u := by
  unfold State.Has
  rw [h.home u hu]
  have := h.next
  exact ⟨fun h => ⟨hu, h.2⟩, fun h => ⟨by omega, h.2⟩⟩

/-- The section starts well. -/
theorem Good.enter (hg : g.Ok) : Good g g.start.enter := by
  have hno : ∀ {b u}, ¬ g.New g.start.enter b u := fun {b u} h => by
    have h1 := h.1
    have h2 : u < g.start.next := h.2.1
    omega
  exact ⟨sound_enter hg.sound, Nat.le_refl _, ⟨[], rfl, nofun⟩, fun _ _ => rfl, fun _ _ => rfl, rfl, rfl, rfl, fun _ _ _ => rfl, fun _ _ => .refl .., fun _ _ _ h => (hno h).elim,
    fun _ _ _ _ h => (hno h).elim, fun _ _ _ _ _ h => (hno h).elim, fun _ _ _ _ _ h => (hno h).elim⟩

/-- What an access through `p` of the kind `w` is to a byte, if `t` is the tag lent. -/
def Goal.Lent (g : Goal) (b i t : Nat) (w : Bool) : Prop := g.loan b i = .excl t ∨ g.loan b i = .shared t ∧ w = false

/-- An access through a tag that was made for the byte, as seen by tag `u`: allowed, and to new tags that were made for the byte at most the one that makes them active. -/
theorem Good.core (hg : g.Ok) (h : Good g s) {p b i u t : Nat} {w : Bool} (hp : s.Has b p) (hl : g.Lent b i t w) (hline : g.Line s t p) (hacc : g.start.next ≤ p → (s.cell b i p).acc = true)
    (hu : s.Has b u) (ht : g.Mine b i → g.start.next ≤ u → (s.cell b i u).acc = true → s.up p u = true) :
    ∃ c, s.step w p b i u = some c ∧ (u < g.start.next → (s.cell b i u).step w (g.start.up t u) (g.start.prot u) = some c) ∧
      (g.start.next ≤ u → c.acc = (s.cell b i u).acc ∧ ((s.cell b i u).acc = true → (w = false → c = s.cell b i u) ∧ (w = true → c.perm = .active))) := by
  by_cases hn : u < g.start.next
  · have hu' := (h.has_old hn).1 hu
    have ha : (g.start.step w t b i u).isSome := by
      rcases hl with hl | ⟨hl, rfl⟩
      · have := (hg.write b i t hl).2.2 u hu'
        cases w
        · obtain ⟨c, hc⟩ := Option.isSome_iff_exists.1 this
          obtain ⟨c1, h1, -⟩ := Cell.read_first hc
          show (Cell.step _ _ _ _).isSome
          rw [h1]; rfl
        · exact this
      · exact (hg.read b i t hl).2.2 u hu'
    have := (h.old b i).allowed (t := t) (w := w) (.inr (hl.elim .inr fun h => .inl h.1)) hu' ha
    obtain ⟨c, hc⟩ := Option.isSome_iff_exists.1 this
    refine ⟨c, ?_, fun _ => hc, fun hn' => absurd hn' (by omega)⟩
    unfold State.step
    rw [hline u hn, h.prot_old hn]; exact hc
  · have hn : g.start.next ≤ u := by omega
    rw [State.step_eq]
    rcases hc : s.cell b i u with ⟨q, a⟩
    cases a with
    | false =>
      have hf : s.up p u = false := by
        cases e : s.up p u
        · rfl
        · by_cases hp' : g.start.next ≤ p
          · have := h.above b i p u ⟨hp', hp⟩ (hacc hp') e hn
            rw [hc] at this; cases this
          · exact absurd (h.sound.old p u hp.1 e) (by omega)
      rw [hf]
      have hs : ∃ c, Cell.step w false (s.prot u) ⟨q, false⟩ = some c := by
        cases w <;> cases s.prot u <;> (first | (cases q with | reserved c => cases c <;> exact ⟨_, rfl⟩ | _ => exact ⟨_, rfl⟩))
      obtain ⟨c, hc'⟩ := hs
      refine ⟨c, hc', fun h => absurd h (by omega), fun _ => ⟨?_, nofun⟩⟩
      rw [Cell.step_acc hc']; rfl
    | true =>
      obtain ⟨t', -, ⟨hl', hq⟩ | ⟨hl', hq⟩⟩ := h.new b i u ⟨hn, hu⟩ (by rw [hc])
      · rw [hc] at hq
        cases hq
        have hw : w = false := by
          rcases hl with hl | ⟨-, hw⟩
          · rw [hl'] at hl; cases hl
          · exact hw
        subst hw
        refine ⟨⟨.frozen, true⟩, ?_, fun h => absurd h (by omega), fun _ => ⟨rfl, fun _ => ⟨fun _ => rfl, nofun⟩⟩⟩
        cases s.up p u <;> cases s.prot u <;> rfl
      · rw [hc] at hq
        have hup := ht ⟨t', hl'⟩ hn (by rw [hc])
        rw [hup]
        rcases hq with hq | hq <;> cases hq <;> cases w
        · refine ⟨⟨.reserved false, true⟩, ?_, fun h => absurd h (by omega), fun _ => ⟨rfl, fun _ => ⟨fun _ => rfl, nofun⟩⟩⟩
          cases s.prot u <;> rfl
        · refine ⟨⟨.active, true⟩, ?_, fun h => absurd h (by omega), fun _ => ⟨rfl, fun _ => ⟨nofun, fun _ => rfl⟩⟩⟩
          cases s.prot u <;> rfl
        · refine ⟨⟨.active, true⟩, ?_, fun h => absurd h (by omega), fun _ => ⟨rfl, fun _ => ⟨fun _ => rfl, nofun⟩⟩⟩
          cases s.prot u <;> rfl
        · refine ⟨⟨.active, true⟩, ?_, fun h => absurd h (by omega), fun _ => ⟨rfl, fun _ => ⟨nofun, fun _ => rfl⟩⟩⟩
          cases s.prot u <;> rfl

/-- What accesses may do to the states of a byte. -/
structure Calm (g : Goal) (s : State) (b i : Nat) (c : Nat → Cell) : Prop where
  old : CellAfter g.start (g.loan b i) b (g.start.cell b i) c
  acc : ∀ u, g.New s b u → (c u).acc = (s.cell b i u).acc
  new : (∀ u, g.New s b u → (s.cell b i u).acc = true → c u = s.cell b i u) ∨ g.Mine b i ∧ ∀ u, g.New s b u → (s.cell b i u).acc = true → (c u).perm = .active

theorem Calm.same (h : Good g s) {b i : Nat} {c : Nat → Cell} (hc : Same s b (s.cell b i) c) : Calm g s b i c where
  old := by
    rcases (h.old b i).cases' with a | ⟨w, t, a, hl⟩
    · exact .inl fun u hu => (hc u ((h.has_old hu.1).2 hu)).trans (a u hu)
    · exact .of (a.right fun u hu => hc u ((h.has_old hu.1).2 hu)) hl
  acc := fun u hu => by rw [hc u hu.2]
  new := .inl fun u hu _ => hc u hu.2

/-- A byte is accessed through a tag that was made for it. -/
theorem Calm.access (hg : g.Ok) (h : Good g s) {p b i t : Nat} {w : Bool} {c : Nat → Cell} (hp : s.Has b p) (hl : g.Lent b i t w) (hline : g.Line s t p)
    (hacc : g.start.next ≤ p → (s.cell b i p).acc = true) (ht : g.Mine b i → ∀ u, g.New s b u → (s.cell b i u).acc = true → s.up p u = true) (hc : Accessed s w p b (s.cell b i) c) : Calm g s b i c := by
  have key : ∀ u, s.Has b u → (u < g.start.next → (s.cell b i u).step w (g.start.up t u) (g.start.prot u) = some (c u)) ∧
      (g.start.next ≤ u → (c u).acc = (s.cell b i u).acc ∧ ((s.cell b i u).acc = true → (w = false → c u = s.cell b i u) ∧ (w = true → (c u).perm = .active))) := fun u hu => by
    obtain ⟨c', h1, h2, h3⟩ := h.core hg hp hl hline hacc hu fun hm hn ha => ht hm u ⟨hn, hu⟩ ha
    have e : c u = c' := Option.some.inj ((hc u hu).symm.trans h1)
    rw [e]; exact ⟨h2, h3⟩
  refine ⟨(h.old b i).step (w := w) (t := t) (fun u hu => (key u ((h.has_old hu.1).2 hu)).1 hu.1) hl, fun u hu => ((key u hu.2).2 hu.1).1, ?_⟩
  cases w
  · exact .inl fun u hu ha => (((key u hu.2).2 hu.1).2 ha).1 rfl
  · refine .inr ⟨?_, fun u hu ha => (((key u hu.2).2 hu.1).2 ha).2 rfl⟩
    rcases hl with hl | ⟨-, hw⟩
    · exact ⟨t, hl⟩
    · cases hw

/-- Steps that change states of bytes only as accesses do, and make references. -/
theorem Good.change (h : Good g s) (hs : Sound s') (hn : s.next ≤ s'.next) (hgd : ∃ l, s'.guard = l :: g.start.guard ∧ ∀ t ∈ l, g.start.next ≤ t ∧ t < s'.next)
    (hh : ∀ t, t < s.next → s'.home t = s.home t) (hup : ∀ t, t < s.next → s'.up t = s.up t) (hsz : s'.mem.size = s.mem.size) (hnb : s'.mem.nbuf = s.mem.nbuf) (hf : s'.freed = s.freed)
    (hm : ∀ b i, ¬ g.Mine b i → s'.mem.cell b i = s.mem.cell b i) (hc : ∀ b i, Calm g s b i (s'.cell b i))
    (hnew : ∀ b i u, s.next ≤ u → s'.Has b u → (s'.cell b i u).acc = true → g.Held s' b i u ∧ (∀ v, g.start.next ≤ v → s'.up u v = true → (s'.cell b i v).acc = true) ∧
      (g.Mine b i → (∀ v, g.New s' b v → (s'.cell b i v).acc = true → s'.up u v = true) ∧ (s'.cell b i u).perm ≠ .active)) : Good g s' := by
  have hnn := h.next
  have back : ∀ {b u}, g.New s' b u → u < s.next → g.New s b u := fun {b u} hu hl => ⟨hu.1, hl, (hh u hl).symm.trans hu.2.2⟩
  have hold : ∀ {u}, u < s.next → ∀ {v}, s.up u v = true → v < s.next := fun {u} hu {v} hv => Nat.lt_of_le_of_lt (h.sound.old u v hu hv) hu
  have backv : ∀ {b u v}, g.New s b u → s.up u v = true → g.start.next ≤ v → g.New s b v := fun {b u v} hu hv hl => ⟨hl, hold hu.2.1 hv, (h.sound.home u v hu.2.1 hv).trans hu.2.2⟩
  refine ⟨hs, Nat.le_trans h.next hn, hgd, fun t ht => (hh t (by omega)).trans (h.home t ht), fun t ht => (hup t (by omega)).trans (h.up t ht), hsz.trans h.size, hnb.trans h.nbuf, hf.trans h.freed,
    fun b i hb => (hm b i hb).trans (h.mem b i hb), fun b i => (hc b i).old, fun b i u hu ha => ?_, fun b i u v hu ha hv hl => ?_, fun b i hmine u v hu hv ha hb => ?_, fun b i hmine u v hu ha hv hl hact => ?_⟩
  · by_cases hl : u < s.next
    · have hu' := back hu hl
      have ha' := (hc b i).acc u hu' ▸ ha
      obtain ⟨t, h1, h2⟩ := h.new b i u hu' ha'
      refine ⟨t, fun v hv => by rw [hup u hl]; exact h1 v hv, ?_⟩
      rcases (hc b i).new with e | ⟨⟨t', e'⟩, e⟩
      · rw [e u hu' ha']; exact h2
      · refine h2.imp (fun h => ?_) fun h => ⟨h.1, .inr (e u hu' ha')⟩
        rw [h.1] at e'; cases e'
    · exact (hnew b i u (by omega) hu.2 ha).1
  · by_cases hlt : u < s.next
    · have hu' := back hu hlt
      rw [hup u hlt] at hv
      rw [(hc b i).acc v (backv hu' hv hl)]
      exact h.above b i u v hu' ((hc b i).acc u hu' ▸ ha) hv hl
    · exact (hnew b i u (by omega) hu.2 ha).2.1 v hl hv
  · by_cases hlt : u < s.next
    · by_cases hlt' : v < s.next
      · have hu' := back hu hlt
        have hv' := back hv hlt'
        rw [hup u hlt, hup v hlt']
        exact h.chain b i hmine u v hu' hv' ((hc b i).acc u hu' ▸ ha) ((hc b i).acc v hv' ▸ hb)
      · exact .inr (((hnew b i v (by omega) hv.2 hb).2.2 hmine).1 u hu ha)
    · exact .inl (((hnew b i u (by omega) hu.2 ha).2.2 hmine).1 v hv hb)
  · by_cases hlt : u < s.next
    · have hu' := back hu hlt
      rw [hup u hlt] at hv
      have hv' := backv hu' hv hl
      have ha' := (hc b i).acc u hu' ▸ ha
      have hav := h.above b i u v hu' ha' hv hl
      rcases (hc b i).new with e | ⟨-, e⟩
      · rw [e u hu' ha'] at hact
        rw [e v hv' hav]; exact h.active b i hmine u v hu' ha' hv hl hact
      · exact e v hv' hav
    · exact absurd hact ((hnew b i u (by omega) hu.2 ha).2.2 hmine).2

/-! ### Steps -/

/-- From `s` to `s'` only the bytes of `X` have changed, and all new references are to bytes of `X` or shared ones. -/
structure Moves (g : Goal) (X : Nat → Nat → Prop) (s s' : State) : Prop where
  good : Good g s'
  next : s.next ≤ s'.next
  home : ∀ t, t < s.next → s'.home t = s.home t
  up : ∀ t, t < s.next → s'.up t = s.up t
  cell : ∀ b i, ¬ X b i → s'.mem.cell b i = s.mem.cell b i
  first : g.start.next ≤ s.next
  acc : ∀ b i u, g.New s b u → (s'.cell b i u).acc = (s.cell b i u).acc
  fresh : ∀ b i u, s.next ≤ u → s'.Has b u → (s'.cell b i u).acc = true → X b i ∨ g.Shared b i

namespace Moves

theorem refl (h : Good g s) : Moves g X s s :=
  ⟨h, Nat.le_refl _, fun _ _ => rfl, fun _ _ => rfl, fun _ _ _ => rfl, h.next, fun _ _ _ _ => rfl, fun _ _ u hu h => absurd h.1 (by omega)⟩

theorem mono (h : Moves g X s s') (hX : ∀ b i, X b i → Y b i) : Moves g Y s s' :=
  ⟨h.good, h.next, h.home, h.up, fun b i hy => h.cell b i fun hx => hy (hX b i hx), h.first, h.acc, fun b i u h1 h2 h3 => (h.fresh b i u h1 h2 h3).imp_left (hX b i)⟩

theorem has (h : Moves g X s s') {b u : Nat} (hu : s.Has b u) : s'.Has b u := ⟨Nat.lt_of_lt_of_le hu.1 h.next, (h.home u hu.1).trans hu.2⟩

theorem trans (h : Moves g X s s1) (h' : Moves g X s1 s2) : Moves g X s s2 where
  good := h'.good
  next := Nat.le_trans h.next h'.next
  home := fun t ht => (h'.home t (Nat.lt_of_lt_of_le ht h.next)).trans (h.home t ht)
  up := fun t ht => (h'.up t (Nat.lt_of_lt_of_le ht h.next)).trans (h.up t ht)
  cell := fun b i hb => (h'.cell b i hb).trans (h.cell b i hb)
  first := h.first
  acc := fun b i u hu => (h'.acc b i u ⟨hu.1, h.has hu.2⟩).trans (h.acc b i u hu)
  fresh := fun b i u hn hu ha => by
    by_cases hl : u < s1.next
    · have hu1 : s1.Has b u := ⟨hl, (h'.home u hl).symm.trans hu.2⟩
      exact h.fresh b i u hn hu1 (h'.acc b i u ⟨Nat.le_trans h.first hn, hu1⟩ ▸ ha)
    · exact h'.fresh b i u (by omega) hu ha

theorem place (h : Moves g X s s') {p : Ptr} (hp : p.buf < s.next) : place s' p = place s p := by unfold Tree.place; rw [h.home _ hp]

end Moves

/-! ### The end of protections -/

/-- The protection of any tag that was made in the section may end at any time, and this changes nothing for the tags that were made for a byte. -/
theorem Good.release (hg : g.Ok) (h : Good g s) {t : Nat} (ht : g.start.next ≤ t) (hlt : t < s.next) : ∃ s', s.release t = some s' ∧ s'.guard = s.guard ∧ s'.next = s.next ∧ ∀ X, Moves g X s s' := by
  have key : ∀ b i u, s.Used t b i → s.Sees t b u → ∃ c, s.last t b i u = some c ∧
      (∀ r, g.Lent b i r (decide ((s.cell b i t).perm = .active)) → g.Line s r t → u < g.start.next → (s.cell b i u).step (decide ((s.cell b i t).perm = .active)) (g.start.up r u) (g.start.prot u) = some c) ∧
      (g.start.next ≤ u → c.acc = (s.cell b i u).acc ∧ ((s.cell b i u).acc = true → c = s.cell b i u)) := by
    intro b i u h1 h2
    have hb : s.Has b t := ⟨hlt, h1.1.symm⟩
    obtain ⟨r, hline, hr⟩ := h.new b i t ⟨ht, hb⟩ h1.2.2
    have hl : g.Lent b i r (decide ((s.cell b i t).perm = .active)) := by
      rcases hr with ⟨hr, hp⟩ | ⟨hr, -⟩
      · exact .inr ⟨hr, by rw [hp]; rfl⟩
      · exact .inl hr
    have hup : g.Mine b i → g.start.next ≤ u → (s.cell b i u).acc = true → s.up t u = true := fun hm hu ha => by
      rcases h.chain b i hm t u ⟨ht, hb⟩ ⟨hu, h2.1⟩ h1.2.2 ha with e | e
      · exact e
      · rcases h2.2 with e' | rfl
        · rw [e] at e'; cases e'
        · exact e
    obtain ⟨c, h3, h4, h5⟩ := h.core hg hb hl hline (fun _ => h1.2.2) h2.1 hup
    refine ⟨c, h3, fun r' hl' hline' hu => ?_, fun hu => ⟨(h5 hu).1, fun ha => ?_⟩⟩
    · have e : r' = r := by
        rcases hl with e | ⟨e, -⟩ <;> rcases hl' with e' | ⟨e', -⟩ <;> rw [e] at e' <;> cases e' <;> rfl
      subst e; exact h4 hu
    · obtain ⟨h6, h7⟩ := (h5 hu).2 ha
      cases hw : decide ((s.cell b i t).perm = .active)
      · exact h6 hw
      · have hw' := of_decide_eq_true hw
        have hm : g.Mine b i := by
          rcases hr with ⟨-, hp⟩ | ⟨hr, -⟩
          · rw [hp] at hw'; cases hw'
          · exact ⟨r, hr⟩
        have h8 := h.active b i hm t u ⟨ht, hb⟩ h1.2.2 (hup hm hu ha) hu hw'
        have h9 := h7 hw
        have h10 := (h5 hu).1
        rcases hc : s.cell b i u with ⟨q, a⟩
        rcases c with ⟨q', a'⟩
        rw [hc] at h8 h10
        cases h8; cases h9; cases h10; rfl
  obtain ⟨s', he, hr⟩ := release_ok (s := s) (t := t) fun b i u h1 h2 => by
    obtain ⟨c, hc, -⟩ := key b i u h1 h2
    rw [hc]; rfl
  have hcalm : ∀ b i, Calm g s b i (s'.cell b i) := by
    intro b i
    by_cases hu : s.Used t b i
    · have hb : s.Has b t := ⟨hlt, hu.1.symm⟩
      obtain ⟨r, hline, hr'⟩ := h.new b i t ⟨ht, hb⟩ hu.2.2
      have hl : g.Lent b i r (decide ((s.cell b i t).perm = .active)) := by
        rcases hr' with ⟨hr, hp⟩ | ⟨hr, -⟩
        · exact .inr ⟨hr, by rw [hp]; rfl⟩
        · exact .inl hr
      have hnew : ∀ u, g.New s b u → (s'.cell b i u).acc = (s.cell b i u).acc ∧ ((s.cell b i u).acc = true → s'.cell b i u = s.cell b i u) := fun u hn => by
        by_cases hs : s.Sees t b u
        · obtain ⟨c, h1, -, h3⟩ := key b i u hu hs
          have e := Option.some.inj (h1.symm.trans (hr.seen b i u hu hs))
          rw [← e]; exact h3 hn.1
        · rw [hr.same b i u fun h => hs h.2]; exact ⟨rfl, fun _ => rfl⟩
      refine ⟨?_, fun u hn => (hnew u hn).1, .inl fun u hn => (hnew u hn).2⟩
      refine (h.old b i).step (w := decide ((s.cell b i t).perm = .active)) (t := r) (fun u hn => ?_) hl
      have hsee : s.Sees t b u := ⟨(h.has_old hn.1).2 hn, .inl (by
        have hn1 := hn.1
        have hlo := h.next
        cases e : s.up u t
        · rfl
        · have := h.sound.old u t (by omega) e
          omega)⟩
      obtain ⟨c, h1, h2, -⟩ := key b i u hu hsee
      have e := Option.some.inj (h1.symm.trans (hr.seen b i u hu hsee))
      rw [← e]; exact h2 r hl hline hn.1
    · exact .same h fun u _ => hr.same b i u fun h => hu h.1
  refine ⟨s', he, hr.guard, hr.next, fun X => ⟨?_, by rw [hr.next], fun _ _ => by rw [hr.home], fun _ _ => by rw [hr.up], fun _ _ _ => by rw [hr.mem], h.next, fun b i u hu => (hcalm b i).acc u hu, ?_⟩⟩
  · refine h.change (hr.sound h.sound) (by rw [hr.next]) (by rw [hr.guard, hr.next]; exact h.guard) (fun _ _ => by rw [hr.home]) (fun _ _ => by rw [hr.up]) (by rw [hr.mem]) (by rw [hr.mem]) hr.freed
      (fun _ _ _ => by rw [hr.mem]) hcalm fun b i u hu hs => ?_
    have := hs.1
    rw [hr.next] at this; omega
  · intro b i u hu hs
    have := hs.1
    rw [hr.next] at this; omega

theorem Good.releaseAll (hg : g.Ok) {ts : List Nat} (h : Good g s) (ht : ∀ t ∈ ts, g.start.next ≤ t ∧ t < s.next) :
    ∃ s', s.releaseAll ts = some s' ∧ s'.guard = s.guard ∧ s'.next = s.next ∧ ∀ X, Moves g X s s' := by
  induction ts generalizing s with
  | nil => exact ⟨s, rfl, rfl, rfl, fun _ => .refl h⟩
  | cons t ts ih =>
    obtain ⟨h1, h2⟩ := ht t (.head _)
    obtain ⟨s1, e, eg, en, hm⟩ := h.release hg h1 h2
    obtain ⟨s2, e2, eg2, en2, hm2⟩ := ih (hm fun _ _ => False).good fun t ht' => by rw [en]; exact ht t (.tail _ ht')
    refine ⟨s2, ?_, eg2.trans eg, en2.trans en, fun X => (hm X).trans (hm2 X)⟩
    rw [State.releaseAll, e]; exact e2

/-- A function returns. -/
theorem Good.retOf (hg : g.Ok) {ts : List Nat} (h : Good g s) (ht : ∀ t ∈ ts, g.start.next ≤ t ∧ t < s.next) : ∃ s', s.retOf ts = some s' ∧ ∀ X, Moves g X s s' := by
  obtain ⟨s1, e, eg, en, hm⟩ := h.releaseAll hg ht
  have h1 := (hm fun _ _ => False).good
  obtain ⟨l, el, hl⟩ := h1.guard
  have hgood : Good g { s1 with guard := s1.guard.modifyHead fun l => l.filter fun t => !ts.contains t } := by
    refine h1.change ⟨fun u hu => h1.sound.guard u ?_, h1.sound.alloc, h1.sound.self, h1.sound.old, h1.sound.home, h1.sound.trans, h1.sound.line⟩ (Nat.le_refl _) ?_ (fun _ _ => rfl) (fun _ _ => rfl) rfl rfl rfl
      (fun _ _ _ => rfl) (fun b i => .same h1 fun _ _ => rfl) fun b i u hu hs => absurd hs.1 (by show ¬ u < s1.next; omega)
    · unfold State.prot at hu ⊢
      rw [el] at hu ⊢
      rw [List.modifyHead_cons, List.any_cons, Bool.or_eq_true] at hu
      rw [List.any_cons, Bool.or_eq_true]
      exact hu.imp_left fun h => List.contains_iff_mem.2 (List.mem_of_mem_filter (List.contains_iff_mem.1 h))
    · exact ⟨_, by rw [el]; rfl, fun t ht => hl t (List.mem_of_mem_filter ht)⟩
  refine ⟨{ s1 with guard := s1.guard.modifyHead fun l => l.filter fun t => !ts.contains t }, ?_, fun X => (hm X).trans ⟨hgood, Nat.le_refl _, fun _ _ => rfl, fun _ _ => rfl, fun _ _ _ => rfl, h1.next, fun _ _ _ _ => rfl,
    fun b i u hu hs => absurd hs.1 (by show ¬ u < s1.next; omega)⟩⟩
  unfold State.retOf
  rw [e]; rfl

/-- The section ends. -/
theorem Good.ret (hg : g.Ok) (h : Good g s) : ∃ s', s.ret = some s' ∧ AfterCall g.start s' g.loan ∧ s'.mem = s.mem := by
  obtain ⟨l, el, hl⟩ := h.guard
  obtain ⟨s1, e, eg, en, hm⟩ := h.releaseAll hg (ts := s.guard.headD []) fun t ht => hl t (by rw [el] at ht; exact ht)
  have h1 := (hm fun _ _ => False).good
  have hret : s.ret = some { s1 with guard := s1.guard.tail } := by unfold State.ret; rw [e]; rfl
  have hgd : s1.guard.tail = g.start.guard := by rw [eg, el]; rfl
  obtain ⟨a1, a2, -⟩ := (Back.mk h.sound hret).facts
  refine ⟨_, hret, ⟨a1, h1.next, hgd, fun t ht => ?_, h1.home, h1.up, ?_, fun b u _ => ?_, fun b u _ => ?_, fun b _ => ?_, h1.old⟩, a2⟩
  · cases e' : State.prot { s1 with guard := s1.guard.tail } t
    · rfl
    · rw [show State.prot { s1 with guard := s1.guard.tail } t = g.start.prot t from prot_eq hgd t] at e'
      have := hg.sound.guard t e'
      omega
  · show _ ≤ s1.mem.nbuf
    rw [h1.nbuf]
  · show s1.mem.size b = _
    rw [h1.size]
  · show s1.freed b = _
    rw [h1.freed]
  · show s1.freed b = _
    rw [h1.freed]

/-- What the other threads may do while a thread has the bytes of `W`. -/
abbrev Rely (g : Goal) (W : Nat → Nat → Prop) : State → State → Prop := Moves g fun b i => ¬ W b i

/-- The byte has its final value. -/
def Goal.Post (g : Goal) (s : State) (b i : Nat) : Prop := s.mem.cell b i = g.target b i

theorem Goal.Post.moves {b i : Nat} (h : g.Post s b i) (hm : Moves g X s s') (hx : ¬ X b i) : g.Post s' b i := (hm.cell b i hx).trans h

/-! ### Threads that do no harm -/

/-- From `s` on, whatever the other threads do, a thread that does `a` has no undefined behaviour, changes only bytes of `W`, and leaves them as they should be. -/
inductive Keeps (g : Goal) : (Nat → Nat → Prop) → Act → State → Prop where
  | done {W : Nat → Nat → Prop} {s : State} (h : ∀ b i, W b i → g.Post s b i) : Keeps g W .done s
  | step {W : Nat → Nat → Prop} {a : Act} {s : State} (f : State → Act × State) (ha : a.acts = true)
      (h : ∀ s', Rely g W s s' → a.step s' = some (f s') ∧ Moves g W s' (f s').2 ∧ (∀ b i, a.writes s' b i → W b i) ∧ ∀ b i, a.reads s' b i → W b i ∨ g.Shared b i)
      (hk : ∀ s', Rely g W s s' → Keeps g W (f s').1 (f s').2) : Keeps g W a s
  | pick {W : Nat → Nat → Prop} {k : Nat → Act} {s : State} (h : ∀ n, Keeps g W (k n) s) : Keeps g W (.pick k) s
  | fork {W W1 W2 : Nat → Nat → Prop} {l r k : Act} {s : State} (hW : ∀ b i, W b i ↔ W1 b i ∨ W2 b i) (hd : ∀ b i, W1 b i → ¬ W2 b i) (hl : Keeps g W1 l s) (hr : Keeps g W2 r s)
      (hk : ∀ s', Moves g (fun _ _ => True) s s' → (∀ b i, W b i → g.Post s' b i) → Keeps g W k s') : Keeps g W (.fork l r k) s

namespace Keeps

theorem mk {a : Act} (ha : a.acts = true) (h : ∀ s', Rely g W s s' → ∃ a' s'', a.step s' = some (a', s'') ∧ Moves g W s' s'' ∧ (∀ b i, a.writes s' b i → W b i) ∧
    (∀ b i, a.reads s' b i → W b i ∨ g.Shared b i) ∧ Keeps g W a' s'') : Keeps g W a s := by
  refine .step (fun s' => (a.step s').getD (.bad, s')) ha (fun s' hs => ?_) fun s' hs => ?_
  · obtain ⟨a', s'', h1, h2, h3, h4, -⟩ := h s' hs
    rw [h1]; exact ⟨rfl, h2, h3, h4⟩
  · obtain ⟨a', s'', h1, -, -, -, h5⟩ := h s' hs
    rw [h1]; exact h5

/-- Other threads do no harm. -/
theorem rely {a : Act} (h : Keeps g W a s) (hm : Rely g W s s') : Keeps g W a s' := by
  induction h generalizing s' with
  | done h => exact .done fun b i hb => (h b i hb).moves hm (fun h => h hb)
  | step f ha h hk => exact .step f ha (fun s'' hs => h s'' (hm.trans hs)) fun s'' hs => hk s'' (hm.trans hs)
  | pick h ih => exact .pick fun n => ih n hm
  | fork hW hd hl hr hk ihl ihr =>
    exact .fork hW hd (ihl (hm.mono fun b i h h' => h ((hW b i).2 (.inl h')))) (ihr (hm.mono fun b i h h' => h ((hW b i).2 (.inr h'))))
      fun s'' hs hp => hk s'' ((hm.mono fun _ _ _ => trivial).trans hs) hp

end Keeps

/-- The same for a thread that may be waiting for two others. -/
inductive AllSafe (g : Goal) : (Nat → Nat → Prop) → Thread → State → Prop where
  | run {W : Nat → Nat → Prop} {a : Act} {s : State} (h : Keeps g W a s) : AllSafe g W (.run a) s
  | join {W W1 W2 : Nat → Nat → Prop} {l r : Thread} {k : Act} {s : State} (hW : ∀ b i, W b i ↔ W1 b i ∨ W2 b i) (hd : ∀ b i, W1 b i → ¬ W2 b i) (hl : AllSafe g W1 l s) (hr : AllSafe g W2 r s)
      (hk : ∀ s', Moves g (fun _ _ => True) s s' → (∀ b i, W b i → g.Post s' b i) → Keeps g W k s') : AllSafe g W (.join l r k) s

namespace AllSafe
variable {t t' : Thread}

theorem rely (h : AllSafe g W t s) (hm : Rely g W s s') : AllSafe g W t s' := by
  induction h with
  | run h => exact .run (h.rely hm)
  | join hW hd hl hr hk ihl ihr =>
    exact .join hW hd (ihl (hm.mono fun b i h h' => h ((hW b i).2 (.inl h')))) (ihr (hm.mono fun b i h h' => h ((hW b i).2 (.inr h'))))
      fun s'' hs hp => hk s'' ((hm.mono fun _ _ _ => trivial).trans hs) hp

theorem leaf (h : AllSafe g W t s) (hs : Good g s) {a : Act} (ha : t.Leaf a) : (∀ b i, a.writes s b i → W b i) ∧ ∀ b i, a.reads s b i → W b i ∨ g.Shared b i := by
  induction h with
  | run h =>
    cases ha
    cases h with
    | done | pick | fork => exact ⟨nofun, nofun⟩
    | step f ha h hk => exact (h _ (.refl hs)).2.2
  | join hW hd hl hr hk ihl ihr =>
    cases ha with
    | left ha => exact ⟨fun b i h => (hW b i).2 (.inl ((ihl hs ha).1 b i h)), fun b i h => ((ihl hs ha).2 b i h).imp_left fun h => (hW b i).2 (.inl h)⟩
    | right ha => exact ⟨fun b i h => (hW b i).2 (.inr ((ihr hs ha).1 b i h)), fun b i h => ((ihr hs ha).2 b i h).imp_left fun h => (hW b i).2 (.inr h)⟩

theorem step (h : AllSafe g W t s) (hgood : Good g s) (hR : ∀ b i, W b i → ¬ g.Shared b i) {o : Option (Thread × State)} (hs : t.Step s o) :
    ∃ t' s', o = some (t', s') ∧ Moves g W s s' ∧ AllSafe g W t' s' := by
  induction hs generalizing W with
  | @act a s a' s' he =>
    cases h with | run h =>
    cases h with
    | done | pick | fork => cases he
    | step f ha h hk =>
      obtain ⟨h1, h2, -⟩ := h _ (.refl hgood)
      rw [h1] at he
      have he := Option.some.inj he
      have hk := hk _ (.refl hgood)
      rw [he] at h2 hk
      exact ⟨_, _, rfl, h2, .run hk⟩
  | fail ha he =>
    cases h with | run h =>
    cases h with
    | done | pick | fork => cases ha
    | step f ha h hk => rw [(h _ (.refl hgood)).1] at he; cases he
  | pick n =>
    cases h with | run h =>
    cases h with
    | pick h => exact ⟨_, _, rfl, .refl hgood, .run (h n)⟩
    | step f ha h hk => cases ha
  | fork =>
    cases h with | run h =>
    cases h with
    | fork hW hd hl hr hk => exact ⟨_, _, rfl, .refl hgood, .join hW hd (.run hl) (.run hr) hk⟩
    | step f ha h hk => cases ha
  | joined =>
    cases h with | join hW hd hl hr hk =>
    cases hl with | run hl =>
    cases hr with | run hr =>
    cases hl with
    | step f ha h hk => cases ha
    | done h1 =>
      cases hr with
      | step f ha h hk => cases ha
      | done h2 => exact ⟨_, _, rfl, .refl hgood, .run (hk _ (.refl hgood) fun b i hb => ((hW b i).1 hb).elim (h1 b i) (h2 b i))⟩
  | left hs ih =>
    cases h with | @join W0 W1 W2 l0 r0 k0 s0 hW hd hl hr hk =>
    obtain ⟨t', s', e, hm, h'⟩ := ih hl hgood (fun b i hb => hR b i ((hW b i).2 (.inl hb)))
    cases e
    exact ⟨_, _, rfl, hm.mono fun b i hb => (hW b i).2 (.inl hb), .join hW hd h' (hr.rely (hm.mono fun b i hb => hd b i hb)) fun s'' hs hp => hk s'' ((hm.mono fun _ _ _ => trivial).trans hs) hp⟩
  | right hs ih =>
    cases h with | @join W0 W1 W2 l0 r0 k0 s0 hW hd hl hr hk =>
    obtain ⟨t', s', e, hm, h'⟩ := ih hr hgood (fun b i hb => hR b i ((hW b i).2 (.inr hb)))
    cases e
    exact ⟨_, _, rfl, hm.mono fun b i hb => (hW b i).2 (.inr hb), .join hW hd (hl.rely (hm.mono fun b i hb h => hd b i h hb)) h' fun s'' hs hp => hk s'' ((hm.mono fun _ _ _ => trivial).trans hs) hp⟩
  | left_bad hs ih =>
    cases h with | join hW hd hl hr hk =>
    obtain ⟨t', s', e, -⟩ := ih hl hgood (fun b i hb => hR b i ((hW b i).2 (.inl hb)))
    cases e
  | right_bad hs ih =>
    cases h with | join hW hd hl hr hk =>
    obtain ⟨t', s', e, -⟩ := ih hr hgood (fun b i hb => hR b i ((hW b i).2 (.inr hb)))
    cases e
  | race hx hy hr =>
    cases h with | join hW hd hl hr' hk =>
    have h1 := hl.leaf hgood hx
    have h2 := hr'.leaf hgood hy
    obtain ⟨b, i, ⟨hw, hw' | hw'⟩ | ⟨hw, hw'⟩⟩ := hr
    · exact (hd b i (h1.1 b i hw) (h2.1 b i hw')).elim
    · rcases h2.2 b i hw' with h | h
      · exact (hd b i (h1.1 b i hw) h).elim
      · exact (hR b i ((hW b i).2 (.inl (h1.1 b i hw))) h).elim
    · rcases h1.2 b i hw' with h | h
      · exact (hd b i h (h2.1 b i hw)).elim
      · exact (hR b i ((hW b i).2 (.inr (h2.1 b i hw))) h).elim

theorem steps (h : AllSafe g W t s) (hgood : Good g s) (hR : ∀ b i, W b i → ¬ g.Shared b i) (hs : t.Steps s t' s') : Moves g W s s' ∧ AllSafe g W t' s' := by
  induction hs with
  | refl => exact ⟨.refl hgood, h⟩
  | tail hs h' ih =>
    obtain ⟨hm, ih⟩ := ih
    obtain ⟨_, _, e, hm', h''⟩ := ih.step hm.good hR h'
    cases e
    exact ⟨hm.trans hm', h''⟩

end AllSafe

/-! ### Every execution ends -/

/-- The rest of a thread after a step, whatever the memory. -/
inductive Thread.After : Thread → Thread → Prop where
  | load {p n k} (bs) : After (.run (k bs)) (.run (.load p n k))
  | store {p bs k} : After (.run k) (.run (.store p bs k))
  | chk {p k} : After (.run k) (.run (.chk p k))
  | retag {b kind p n k} (q) : After (.run (k q)) (.run (.retag b kind p n k))
  | ret {ts k} : After (.run k) (.run (.ret ts k))
  | pick {k} (n) : After (.run (k n)) (.run (.pick k))
  | fork {l r k} : After (.join (.run l) (.run r) k) (.run (.fork l r k))
  | joined {k} : After (.run k) (.join (.run .done) (.run .done) k)
  | left {l l' r k} (h : After l' l) : After (.join l' r k) (.join l r k)
  | right {l r r' k} (h : After r' r) : After (.join l r' k) (.join l r k)

theorem Thread.Step.after {t : Thread} {s : State} {o : Option (Thread × State)} (h : t.Step s o) {t' : Thread} {s' : State} (e : o = some (t', s')) : Thread.After t' t := by
  induction h generalizing t' s' with
  | @act a s a' s'' he =>
    cases e
    cases a with
    | load p n k =>
      simp only [Act.step] at he
      split at he
      · cases he; exact .load _
      · cases he
    | store p bs k =>
      simp only [Act.step] at he
      split at he
      · split at he
        · cases he; exact .store
        · cases he
      · cases he
    | chk p k =>
      simp only [Act.step] at he
      split at he
      · cases he; exact .chk
      · cases he
    | retag b kind p n k =>
      simp only [Act.step] at he
      split at he
      · cases he; exact .retag _
      · cases he
    | ret ts k =>
      simp only [Act.step] at he
      split at he
      · cases he; exact .ret
      · cases he
    | done | bad | pick | fork => cases he
  | pick n => cases e; exact .pick n
  | fork => cases e; exact .fork
  | joined => cases e; exact .joined
  | left h ih => cases e; exact .left (ih rfl)
  | right h ih => cases e; exact .right (ih rfl)
  | fail | left_bad | right_bad | race => cases e

theorem acc_join {l r : Thread} {k : Act} (hl : Acc Thread.After l) (hr : Acc Thread.After r) (hk : Acc Thread.After (.run k)) : Acc Thread.After (.join l r k) := by
  induction hl generalizing r with
  | intro l hl ihl =>
    induction hr with
    | intro r hr ihr =>
      refine ⟨_, fun t h => ?_⟩
      cases h with
      | joined => exact hk
      | left h => exact ihl _ h ⟨_, hr⟩
      | right h => exact ihr _ h

theorem acc_run (a : Act) : Acc Thread.After (.run a) := by
  induction a with
  | done => exact ⟨_, fun t h => nomatch h⟩
  | bad => exact ⟨_, fun t h => nomatch h⟩
  | load p n k ih => exact ⟨_, fun t h => by cases h; exact ih _⟩
  | store p bs k ih => exact ⟨_, fun t h => by cases h; exact ih⟩
  | chk p k ih => exact ⟨_, fun t h => by cases h; exact ih⟩
  | retag b kind p n k ih => exact ⟨_, fun t h => by cases h; exact ih _⟩
  | ret ts k ih => exact ⟨_, fun t h => by cases h; exact ih⟩
  | pick k ih => exact ⟨_, fun t h => by cases h; exact ih _⟩
  | fork l r k ihl ihr ihk => exact ⟨_, fun t h => by cases h; exact acc_join ihl ihr ihk⟩

theorem acc_thread (t : Thread) : Acc Thread.After t := by
  induction t with
  | run a => exact acc_run a
  | join l r k ihl ihr => exact acc_join ihl ihr (acc_run k)

/-- No execution goes on forever. -/
theorem no_forever (f : Nat → Thread × State) (h : ∀ n, (f n).1.Step (f n).2 (some (f (n + 1)))) : False := by
  have : ∀ t, Acc Thread.After t → ∀ n, (f n).1 = t → False := by
    intro t ht
    induction ht with
    | intro t ht ih =>
      rintro n rfl
      exact ih _ ((h n).after (t' := (f (n + 1)).1) (s' := (f (n + 1)).2) rfl) (n + 1) rfl
  exact this _ (acc_thread _) 0 rfl

/-- A thread that has not ended can go on. -/
theorem can_step (t : Thread) (s : State) : t = .run .done ∨ ∃ o, t.Step s o := by
  induction t with
  | run a =>
    cases a with
    | done => exact .inl rfl
    | pick k => exact .inr ⟨_, .pick 0⟩
    | fork l r k => exact .inr ⟨_, .fork⟩
    | bad | load | store | chk | retag | ret =>
      refine .inr ?_
      cases h : Act.step _ s with
      | none => exact ⟨_, .fail rfl h⟩
      | some o => exact ⟨_, .act h⟩
  | join l r k ihl ihr =>
    refine .inr ?_
    rcases ihl with rfl | ⟨_ | ⟨t, s'⟩, h⟩
    · rcases ihr with rfl | ⟨_ | ⟨t, s'⟩, h⟩
      · exact ⟨_, .joined⟩
      · exact ⟨_, .right_bad h⟩
      · exact ⟨_, .right h⟩
    · exact ⟨_, .left_bad h⟩
    · exact ⟨_, .left h⟩

/-- Some execution comes to an end. -/
theorem ends (t : Thread) (s : State) : (∃ s', t.Steps s (.run .done) s') ∨ ∃ t' s', t.Steps s t' s' ∧ t'.Step s' none := by
  have key : ∀ t', Acc Thread.After t' → ∀ s', t.Steps s t' s' → (∃ s', t.Steps s (.run .done) s') ∨ ∃ t' s', t.Steps s t' s' ∧ t'.Step s' none := by
    intro t' ht
    induction ht with
    | intro t' ht ih =>
      intro s' hs
      rcases can_step t' s' with rfl | ⟨_ | ⟨t'', s''⟩, h⟩
      · exact .inl ⟨_, hs⟩
      · exact .inr ⟨_, _, hs, h⟩
      · exact ih _ (h.after rfl) s'' (hs.tail h)
  exact key t (acc_thread t) s .refl

end Simd.Tree
