import Verif.Lemmas.BorrowOps
import Verif.Model.BorrowPar
/-
Threads with borrow stacks: what a thread may do, what the others may do meanwhile, and that threads that keep to this together have no undefined behaviour.
-/
namespace Simd.Borrow
open Spec

/-- What is fixed for a parallel section: the bytes all threads may read and their contents, the sizes of the allocations, the bytes to be written and the stacks at the start. -/
structure Goal where
  shared : Nat → Nat → Prop
  size : Nat → Nat
  source : Nat → Nat → Cell
  target : Nat → Nat → Cell
  stack : Nat → Nat → Stack
  next : Nat
  frame : Nat

/-- Items that were made in the section. -/
def Goal.Made (g : Goal) (s : State) (it : Item) : Prop := g.next ≤ it.tag ∧ it.tag < s.next ∧ (it.prot = none ∨ it.prot = some g.frame)

/-- The stack of the byte has only got new items on top. -/
def Goal.Grown (g : Goal) (s : State) (b i : Nat) : Prop := ∃ new, s.stack b i = new ++ g.stack b i ∧ ∀ it ∈ new, g.Made s it

/-- The byte has its final value. -/
def Goal.Post (g : Goal) (s : State) (b i : Nat) : Prop := s.mem.cell b i = g.target b i ∧ g.Grown s b i

variable {g : Goal} {W W' X Y : Nat → Nat → Prop} {s s' s1 s2 : State}

/-- From `s` to `s'` only the bytes of `X` have changed; shared bytes have at most got new items for reading. -/
structure Moves (g : Goal) (X : Nat → Nat → Prop) (s s' : State) : Prop where
  next : s.next ≤ s'.next
  frame : s'.frame = s.frame
  home : ∀ t, t < s.next → s'.home t = s.home t
  size : s'.mem.size = s.mem.size
  nbuf : s'.mem.nbuf = s.mem.nbuf
  cell : ∀ b i, ¬ X b i ∨ g.shared b i → s'.mem.cell b i = s.mem.cell b i
  stack : ∀ b i, ¬ X b i → ¬ g.shared b i → s'.stack b i = s.stack b i
  readers : ∀ b i, g.shared b i → ∃ new, s'.stack b i = new ++ s.stack b i ∧ ∀ it ∈ new, it.perm = .sharedRO ∧ s.next ≤ it.tag ∧ it.tag < s'.next ∧ (it.prot = none ∨ it.prot = some s.frame)

namespace Moves

theorem refl (s : State) : Moves g X s s :=
  ⟨Nat.le_refl _, rfl, fun _ _ => rfl, rfl, rfl, fun _ _ _ => rfl, fun _ _ _ _ => rfl, fun _ _ _ => ⟨[], rfl, nofun⟩⟩

theorem mono (h : Moves g X s s') (hX : ∀ b i, X b i → Y b i) : Moves g Y s s' :=
  ⟨h.next, h.frame, h.home, h.size, h.nbuf, fun b i hb => h.cell b i (hb.imp_left fun hy hx => hy (hX b i hx)), fun b i hy => h.stack b i fun hx => hy (hX b i hx), h.readers⟩

theorem trans (h : Moves g X s s1) (h' : Moves g X s1 s2) : Moves g X s s2 where
  next := Nat.le_trans h.next h'.next
  frame := h'.frame.trans h.frame
  home := fun t ht => (h'.home t (Nat.lt_of_lt_of_le ht h.next)).trans (h.home t ht)
  size := h'.size.trans h.size
  nbuf := h'.nbuf.trans h.nbuf
  cell := fun b i hb => (h'.cell b i hb).trans (h.cell b i hb)
  stack := fun b i hx hr => (h'.stack b i hx hr).trans (h.stack b i hx hr)
  readers := fun b i hr => by
    obtain ⟨new, e, hn⟩ := h.readers b i hr
    obtain ⟨new', e', hn'⟩ := h'.readers b i hr
    refine ⟨new' ++ new, by rw [e', e, List.append_assoc], fun it hi => ?_⟩
    rcases List.mem_append.1 hi with hi | hi
    · obtain ⟨a1, a2, a3, a4⟩ := hn' it hi
      exact ⟨a1, Nat.le_trans h.next a2, a3, h.frame ▸ a4⟩
    · obtain ⟨a1, a2, a3, a4⟩ := hn it hi
      exact ⟨a1, a2, Nat.lt_of_lt_of_le a3 h'.next, a4⟩

theorem place (h : Moves g X s s') {p : Ptr} (hp : p.buf < s.next) : place s' p = place s p := by unfold Spec.place; rw [h.home _ hp]

end Moves

/-- What the other threads may do while a thread has the bytes of `W`. -/
abbrev Rely (g : Goal) (W : Nat → Nat → Prop) : State → State → Prop := Moves g fun b i => ¬ W b i

/-! ### Threads that do no harm -/

/-- From `s` on, whatever the other threads do, a thread that does `a` has no undefined behaviour, changes only bytes of `W`, and leaves them as they should be. -/
inductive Keeps (g : Goal) : (Nat → Nat → Prop) → Act → State → Prop where
  | done {W : Nat → Nat → Prop} {s : State} (h : ∀ b i, W b i → g.Post s b i) : Keeps g W .done s
  | step {W : Nat → Nat → Prop} {a : Act} {s : State} (f : State → Act × State) (ha : a.acts = true)
      (h : ∀ s', Rely g W s s' → a.step s' = some (f s') ∧ Moves g W s' (f s').2 ∧ (∀ b i, a.writes s' b i → W b i) ∧ ∀ b i, a.reads s' b i → W b i ∨ g.shared b i)
      (hk : ∀ s', Rely g W s s' → Keeps g W (f s').1 (f s').2) : Keeps g W a s
  | pick {W : Nat → Nat → Prop} {k : Nat → Act} {s : State} (h : ∀ n, Keeps g W (k n) s) : Keeps g W (.pick k) s
  | fork {W W1 W2 : Nat → Nat → Prop} {l r : Act} {s : State} (hW : ∀ b i, W b i ↔ W1 b i ∨ W2 b i) (hd : ∀ b i, W1 b i → ¬ W2 b i) (hl : Keeps g W1 l s) (hr : Keeps g W2 r s) : Keeps g W (.fork l r) s

theorem Goal.Made.mono {it : Item} (h : g.Made s it) (hn : s.next ≤ s'.next) : g.Made s' it := ⟨h.1, Nat.lt_of_lt_of_le h.2.1 hn, h.2.2⟩

theorem Goal.Grown.moves {b i : Nat} (h : g.Grown s b i) (hm : Moves g X s s') (hx : ¬ X b i) (hr : ¬ g.shared b i) : g.Grown s' b i := by
  obtain ⟨new, e, hn⟩ := h
  exact ⟨new, (hm.stack b i hx hr).trans e, fun it hi => (hn it hi).mono hm.next⟩

theorem Goal.Post.moves {b i : Nat} (h : g.Post s b i) (hm : Moves g X s s') (hx : ¬ X b i) (hr : ¬ g.shared b i) : g.Post s' b i :=
  ⟨(hm.cell b i (.inl hx)).trans h.1, h.2.moves hm hx hr⟩

namespace Keeps

theorem mk {a : Act} (ha : a.acts = true) (h : ∀ s', Rely g W s s' → ∃ a' s'', a.step s' = some (a', s'') ∧ Moves g W s' s'' ∧ (∀ b i, a.writes s' b i → W b i) ∧
    (∀ b i, a.reads s' b i → W b i ∨ g.shared b i) ∧ Keeps g W a' s'') : Keeps g W a s := by
  refine .step (fun s' => (a.step s').getD (.bad, s')) ha (fun s' hs => ?_) fun s' hs => ?_
  · obtain ⟨a', s'', h1, h2, h3, h4, -⟩ := h s' hs
    rw [h1]; exact ⟨rfl, h2, h3, h4⟩
  · obtain ⟨a', s'', h1, -, -, -, h5⟩ := h s' hs
    rw [h1]; exact h5

/-- Other threads do no harm. -/
theorem rely {a : Act} (h : Keeps g W a s) (hR : ∀ b i, W b i → ¬ g.shared b i) (hm : Rely g W s s') : Keeps g W a s' := by
  induction h generalizing s' with
  | done h => exact .done fun b i hb => (h b i hb).moves hm (fun h => h hb) (hR b i hb)
  | step f ha h hk => exact .step f ha (fun s'' hs => h s'' (hm.trans hs)) fun s'' hs => hk s'' (hm.trans hs)
  | pick h ih => exact .pick fun n => ih n hR hm
  | fork hW hd hl hr ihl ihr =>
    exact .fork hW hd (ihl (fun b i hb => hR b i ((hW b i).2 (.inl hb))) (hm.mono fun b i h h' => h ((hW b i).2 (.inl h'))))
      (ihr (fun b i hb => hR b i ((hW b i).2 (.inr hb))) (hm.mono fun b i h h' => h ((hW b i).2 (.inr h'))))

/-- A thread may also have bytes that are already as they should be. -/
theorem frame {a : Act} {W1 W2 : Nat → Nat → Prop} (h : Keeps g W1 a s) (hW : ∀ b i, W b i ↔ W1 b i ∨ W2 b i) (hd : ∀ b i, W1 b i → ¬ W2 b i) (hR : ∀ b i, W2 b i → ¬ g.shared b i)
    (hp : ∀ b i, W2 b i → g.Post s b i) : Keeps g W a s := by
  induction h generalizing W W2 with
  | done h => exact .done fun b i hb => ((hW b i).1 hb).elim (h b i) (hp b i)
  | step f ha h hk ih =>
    have hsub : ∀ {s s'}, Rely g W s s' → Rely g _ s s' := fun hs => hs.mono fun b i h h' => h ((hW b i).2 (.inl h'))
    refine .step f ha (fun s' hs => ?_) fun s' hs => ih s' (hsub hs) hW hd hR fun b i hb => ?_
    · obtain ⟨h1, h2, h3, h4⟩ := h s' (hsub hs)
      exact ⟨h1, h2.mono fun b i hb => (hW b i).2 (.inl hb), fun b i hb => (hW b i).2 (.inl (h3 b i hb)), fun b i hb => (h4 b i hb).imp_left fun hb => (hW b i).2 (.inl hb)⟩
    · exact ((hp b i hb).moves hs (fun h => h ((hW b i).2 (.inr hb))) (hR b i hb)).moves (h s' (hsub hs)).2.1 (fun h => hd b i h hb) (hR b i hb)
  | pick h ih => exact .pick fun n => ih n hW hd hR hp
  | @fork W0 V1 V2 l r s hV hdV hl hr ihl ihr =>
    refine .fork (W1 := fun b i => V1 b i ∨ W2 b i) (W2 := V2) (fun b i => ?_) (fun b i h1 h2 => ?_) (ihl (fun b i => Iff.rfl) (fun b i h => hd b i ((hV b i).2 (.inl h))) hR hp) hr
    · rw [hW b i, hV b i]; constructor
      · rintro ((h | h) | h)
        · exact .inl (.inl h)
        · exact .inr h
        · exact .inl (.inr h)
      · rintro ((h | h) | h)
        · exact .inl (.inl h)
        · exact .inr h
        · exact .inl (.inr h)
    · exact h1.elim (fun h => hdV b i h h2) fun h => hd b i ((hV b i).2 (.inr h2)) h

end Keeps

/-- The same for a thread that may be waiting for two others. -/
inductive AllSafe (g : Goal) : (Nat → Nat → Prop) → Thread → State → Prop where
  | run {W : Nat → Nat → Prop} {a : Act} {s : State} (h : Keeps g W a s) : AllSafe g W (.run a) s
  | join {W W1 W2 : Nat → Nat → Prop} {l r : Thread} {s : State} (hW : ∀ b i, W b i ↔ W1 b i ∨ W2 b i) (hd : ∀ b i, W1 b i → ¬ W2 b i) (hl : AllSafe g W1 l s) (hr : AllSafe g W2 r s) : AllSafe g W (.join l r) s

namespace AllSafe
variable {t t' : Thread}

theorem rely (h : AllSafe g W t s) (hR : ∀ b i, W b i → ¬ g.shared b i) (hm : Rely g W s s') : AllSafe g W t s' := by
  induction h with
  | run h => exact .run (h.rely hR hm)
  | join hW hd hl hr ihl ihr =>
    exact .join hW hd (ihl (fun b i hb => hR b i ((hW b i).2 (.inl hb))) (hm.mono fun b i h h' => h ((hW b i).2 (.inl h'))))
      (ihr (fun b i hb => hR b i ((hW b i).2 (.inr hb))) (hm.mono fun b i h h' => h ((hW b i).2 (.inr h'))))

theorem leaf (h : AllSafe g W t s) {a : Act} (ha : t.Leaf a) : (∀ b i, a.writes s b i → W b i) ∧ ∀ b i, a.reads s b i → W b i ∨ g.shared b i := by
  induction h with
  | run h =>
    cases ha
    cases h with
    | done | pick | fork => exact ⟨nofun, nofun⟩
    | step f ha h hk => exact (h _ (.refl _)).2.2
  | join hW hd hl hr ihl ihr =>
    cases ha with
    | left ha => exact ⟨fun b i h => (hW b i).2 (.inl ((ihl ha).1 b i h)), fun b i h => ((ihl ha).2 b i h).imp_left fun h => (hW b i).2 (.inl h)⟩
    | right ha => exact ⟨fun b i h => (hW b i).2 (.inr ((ihr ha).1 b i h)), fun b i h => ((ihr ha).2 b i h).imp_left fun h => (hW b i).2 (.inr h)⟩

theorem step (h : AllSafe g W t s) (hR : ∀ b i, W b i → ¬ g.shared b i) {o : Option (Thread × State)} (hs : t.Step s o) :
    ∃ t' s', o = some (t', s') ∧ Moves g W s s' ∧ AllSafe g W t' s' := by
  induction hs generalizing W with
  | @act a s a' s' he =>
    cases h with | run h =>
    cases h with
    | done | pick | fork => cases he
    | step f ha h hk =>
      obtain ⟨h1, h2, -⟩ := h _ (.refl _)
      rw [h1] at he
      have he := Option.some.inj he
      have hk := hk _ (.refl _)
      rw [he] at h2 hk
      exact ⟨_, _, rfl, h2, .run hk⟩
  | fail ha he =>
    cases h with | run h =>
    cases h with
    | done | pick | fork => cases ha
    | step f ha h hk => rw [(h _ (.refl _)).1] at he; cases he
  | pick n =>
    cases h with | run h =>
    cases h with
    | pick h => exact ⟨_, _, rfl, .refl _, .run (h n)⟩
    | step f ha h hk => cases ha
  | fork =>
    cases h with | run h =>
    cases h with
    | fork hW hd hl hr => exact ⟨_, _, rfl, .refl _, .join hW hd (.run hl) (.run hr)⟩
    | step f ha h hk => cases ha
  | joined =>
    cases h with | join hW hd hl hr =>
    cases hl with | run hl =>
    cases hr with | run hr =>
    cases hl with
    | step f ha h hk => cases ha
    | done h1 =>
      cases hr with
      | step f ha h hk => cases ha
      | done h2 => exact ⟨_, _, rfl, .refl _, .run (.done fun b i hb => ((hW b i).1 hb).elim (h1 b i) (h2 b i))⟩
  | left hs ih =>
    cases h with | @join W0 W1 W2 l0 r0 s0 hW hd hl hr =>
    obtain ⟨t', s', e, hm, h'⟩ := ih hl (fun b i hb => hR b i ((hW b i).2 (.inl hb)))
    cases e
    exact ⟨_, _, rfl, hm.mono fun b i hb => (hW b i).2 (.inl hb),
      .join hW hd h' (hr.rely (fun b i hb => hR b i ((hW b i).2 (.inr hb))) (hm.mono fun b i hb => hd b i hb))⟩
  | right hs ih =>
    cases h with | @join W0 W1 W2 l0 r0 s0 hW hd hl hr =>
    obtain ⟨t', s', e, hm, h'⟩ := ih hr (fun b i hb => hR b i ((hW b i).2 (.inr hb)))
    cases e
    exact ⟨_, _, rfl, hm.mono fun b i hb => (hW b i).2 (.inr hb),
      .join hW hd (hl.rely (fun b i hb => hR b i ((hW b i).2 (.inl hb))) (hm.mono fun b i hb h => hd b i h hb)) h'⟩
  | left_bad hs ih =>
    cases h with | join hW hd hl hr =>
    obtain ⟨t', s', e, -⟩ := ih hl (fun b i hb => hR b i ((hW b i).2 (.inl hb)))
    cases e
  | right_bad hs ih =>
    cases h with | join hW hd hl hr =>
    obtain ⟨t', s', e, -⟩ := ih hr (fun b i hb => hR b i ((hW b i).2 (.inr hb)))
    cases e
  | race hx hy hr =>
    cases h with | join hW hd hl hr' =>
    have h1 := hl.leaf hx
    have h2 := hr'.leaf hy
    obtain ⟨b, i, ⟨hw, hw' | hw'⟩ | ⟨hw, hw'⟩⟩ := hr
    · exact (hd b i (h1.1 b i hw) (h2.1 b i hw')).elim
    · rcases h2.2 b i hw' with h | h
      · exact (hd b i (h1.1 b i hw) h).elim
      · exact (hR b i ((hW b i).2 (.inl (h1.1 b i hw))) h).elim
    · rcases h1.2 b i hw' with h | h
      · exact (hd b i h (h2.1 b i hw)).elim
      · exact (hR b i ((hW b i).2 (.inr (h2.1 b i hw))) h).elim

theorem steps (h : AllSafe g W t s) (hR : ∀ b i, W b i → ¬ g.shared b i) (hs : t.Steps s t' s') : Moves g W s s' ∧ AllSafe g W t' s' := by
  induction hs with
  | refl => exact ⟨.refl _, h⟩
  | tail hs h' ih =>
    obtain ⟨hm, ih⟩ := ih
    obtain ⟨_, _, e, hm', h''⟩ := ih.step hR h'
    cases e
    exact ⟨hm.trans hm', h''⟩

end AllSafe

/-! ### Every execution ends -/

/-- The rest of a thread after a step, whatever the memory. -/
inductive Thread.After : Thread → Thread → Prop where
  | load {p n k} (bs) : After (.run (k bs)) (.run (.load p n k))
  | store {p bs k} : After (.run k) (.run (.store p bs k))
  | chk {p k} : After (.run k) (.run (.chk p k))
  | retag {b kind p n k} (q) : After (.run (k q)) (.run (.retag b kind p n k))
  | pick {k} (n) : After (.run (k n)) (.run (.pick k))
  | fork {l r} : After (.join (.run l) (.run r)) (.run (.fork l r))
  | joined : After (.run .done) (.join (.run .done) (.run .done))
  | left {l l' r} (h : After l' l) : After (.join l' r) (.join l r)
  | right {l r r'} (h : After r' r) : After (.join l r') (.join l r)

theorem Thread.Step.after {t : Thread} {s : State} {o : Option (Thread × State)} (h : t.Step s o) {t' : Thread} {s' : State} (e : o = some (t', s')) : Thread.After t' t := by
  induction h generalizing t' s' with
  | @act a s a' s'' he =>
    cases e
    cases a with
    | load p n k =>
      simp only [Act.step] at he
      split at he
      · cases he; exact .load _
      · cases he
    | store p bs k =>
      simp only [Act.step] at he
      split at he
      · split at he
        · cases he; exact .store
        · cases he
      · cases he
    | chk p k =>
      simp only [Act.step] at he
      split at he
      · cases he; exact .chk
      · cases he
    | retag b kind p n k =>
      simp only [Act.step] at he
      split at he
      · cases he; exact .retag _
      · cases he
    | done | bad | pick | fork => cases he
  | pick n => cases e; exact .pick n
  | fork => cases e; exact .fork
  | joined => cases e; exact .joined
  | left h ih => cases e; exact .left (ih rfl)
  | right h ih => cases e; exact .right (ih rfl)
  | fail | left_bad | right_bad | race => cases e

theorem acc_done : Acc Thread.After (.run .done) := ⟨_, fun t h => nomatch h⟩

theorem acc_join {l r : Thread} (hl : Acc Thread.After l) (hr : Acc Thread.After r) : Acc Thread.After (.join l r) := by
  induction hl generalizing r with
  | intro l hl ihl =>
    induction hr with
    | intro r hr ihr =>
      refine ⟨_, fun t h => ?_⟩
      cases h with
      | joined => exact acc_done
      | left h => exact ihl _ h ⟨_, hr⟩
      | right h => exact ihr _ h

theorem acc_run (a : Act) : Acc Thread.After (.run a) := by
  induction a with
  | done => exact acc_done
  | bad => exact ⟨_, fun t h => nomatch h⟩
  | load p n k ih => exact ⟨_, fun t h => by cases h; exact ih _⟩
  | store p bs k ih => exact ⟨_, fun t h => by cases h; exact ih⟩
  | chk p k ih => exact ⟨_, fun t h => by cases h; exact ih⟩
  | retag b kind p n k ih => exact ⟨_, fun t h => by cases h; exact ih _⟩
  | pick k ih => exact ⟨_, fun t h => by cases h; exact ih _⟩
  | fork l r ihl ihr => exact ⟨_, fun t h => by cases h; exact acc_join ihl ihr⟩

theorem acc_thread (t : Thread) : Acc Thread.After t := by
  induction t with
  | run a => exact acc_run a
  | join l r ihl ihr => exact acc_join ihl ihr

/-- No execution goes on forever. -/
theorem no_forever (f : Nat → Thread × State) (h : ∀ n, (f n).1.Step (f n).2 (some (f (n + 1)))) : False := by
  have : ∀ t, Acc Thread.After t → ∀ n, (f n).1 = t → False := by
    intro t ht
    induction ht with
    | intro t ht ih =>
      rintro n rfl
      exact ih _ ((h n).after (t' := (f (n + 1)).1) (s' := (f (n + 1)).2) rfl) (n + 1) rfl
  exact this _ (acc_thread _) 0 rfl

/-- A thread that has not ended can go on. -/
theorem can_step (t : Thread) (s : State) : t = .run .done ∨ ∃ o, t.Step s o := by
  induction t with
  | run a =>
    cases a with
    | done => exact .inl rfl
    | pick k => exact .inr ⟨_, .pick 0⟩
    | fork l r => exact .inr ⟨_, .fork⟩
    | bad | load | store | chk | retag =>
      refine .inr ?_
      cases h : Act.step _ s with
      | none => exact ⟨_, .fail rfl h⟩
      | some o => exact ⟨_, .act h⟩
  | join l r ihl ihr =>
    refine .inr ?_
    rcases ihl with rfl | ⟨_ | ⟨t, s'⟩, h⟩
    · rcases ihr with rfl | ⟨_ | ⟨t, s'⟩, h⟩
      · exact ⟨_, .joined⟩
      · exact ⟨_, .right_bad h⟩
      · exact ⟨_, .right h⟩
    · exact ⟨_, .left_bad h⟩
    · exact ⟨_, .left h⟩

/-- Some execution comes to an end. -/
theorem ends (t : Thread) (s : State) : (∃ s', t.Steps s (.run .done) s') ∨ ∃ t' s', t.Steps s t' s' ∧ t'.Step s' none := by
  have key : ∀ t', Acc Thread.After t' → ∀ s', t.Steps s t' s' → (∃ s', t.Steps s (.run .done) s') ∨ ∃ t' s', t.Steps s t' s' ∧ t'.Step s' none := by
    intro t' ht
    induction ht with
    | intro t' ht ih =>
      intro s' hs
      rcases can_step t' s' with rfl | ⟨_ | ⟨t'', s''⟩, h⟩
      · exact .inl ⟨_, hs⟩
      · exact .inr ⟨_, _, hs, h⟩
      · exact ih _ (h.after rfl) s'' (hs.tail h)
  exact key t (acc_thread t) s .refl

end Simd.Borrow
