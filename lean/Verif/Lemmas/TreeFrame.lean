import Verif.Lemmas.TreeOps
/-
Borrow trees: function calls, and loops that get raw pointers.
-/
namespace Simd.Tree
open Spec
open Borrow (Piece Good1 Good2 inj1 inj2)

variable {α β : Type}

/-! ### The end of a call -/

/-- The state after the end of the protection of `t`. -/
structure Released (s s' : State) (t : Nat) : Prop where
  mem : s'.mem = s.mem
  next : s'.next = s.next
  guard : s'.guard = s.guard
  home : s'.home = s.home
  up : s'.up = s.up
  freed : s'.freed = s.freed
  seen : ∀ b i u, s.Used t b i → s.Sees t b u → s.last t b i u = some (s'.cell b i u)
  same : ∀ b i u, ¬ (s.Used t b i ∧ s.Sees t b u) → s'.cell b i u = s.cell b i u

theorem release_ok {s : State} {t : Nat} (h : ∀ b i u, s.Used t b i → s.Sees t b u → (s.last t b i u).isSome) : ∃ s', s.release t = some s' ∧ Released s s' t := by
  unfold State.release
  rw [if_pos fun i _ u _ h1 h2 => h _ i u h1 h2]
  refine ⟨_, rfl, rfl, rfl, rfl, rfl, rfl, rfl, fun b i u h1 h2 => ?_, fun b i u hn => if_neg hn⟩
  dsimp only
  rw [if_pos ⟨h1, h2⟩]
  obtain ⟨c, hc⟩ := Option.isSome_iff_exists.1 (h b i u h1 h2)
  rw [hc]; rfl

theorem release_some {s s' : State} {t : Nat} (h : s.release t = some s') : Released s s' t := by
  unfold State.release at h
  split at h
  · rename_i hc
    cases h
    refine ⟨rfl, rfl, rfl, rfl, rfl, rfl, fun b i u h1 h2 => ?_, fun b i u hn => if_neg hn⟩
    dsimp only
    rw [if_pos ⟨h1, h2⟩]
    obtain ⟨rfl, h1', -⟩ := id h1
    obtain ⟨c, hc⟩ := Option.isSome_iff_exists.1 (hc i h1' u h2.1.1 h1 h2)
    rw [hc]; rfl
  · cases h

theorem Released.prot {s s' : State} {t : Nat} (h : Released s s' t) (u : Nat) : s'.prot u = s.prot u := prot_eq h.guard u
theorem Released.has {s s' : State} {t : Nat} (h : Released s s' t) {b u : Nat} : s'.Has b u ↔ s.Has b u := by unfold State.Has; rw [h.next, h.home]

theorem Released.sound {s s' : State} {t : Nat} (h : Released s s' t) (hs : Sound s) : Sound s' := by
  refine ⟨fun u hu => ?_, ?_, ?_, ?_, ?_, ?_, ?_⟩
  · rw [h.prot] at hu; rw [h.next]; exact hs.guard u hu
  · rw [h.next, h.home, h.mem]; exact hs.alloc
  · rw [h.next, h.up]; exact hs.self
  · rw [h.next, h.up]; exact hs.old
  · rw [h.next, h.up, h.home]; exact hs.home
  · rw [h.next, h.up]; exact hs.trans
  · rw [h.next, h.up]; exact hs.line

/-- What may be done through a descendant of `t`, and what may be written at all, may be after the protection of `t` has ended. -/
theorem Released.allowed {s s' : State} {t : Nat} (h : Released s s' t) (hs : Sound s) (ht : s.prot t = true) {w : Bool} {r b i : Nat} (hr : r < s.next) (hw : w = true ∨ s.up r t = true)
    (ha : Allowed s w r b i) : Allowed s' w r b i := by
  refine ⟨by rw [h.mem]; exact ha.1, by rw [h.freed]; exact ha.2.1, fun u hu => ?_⟩
  rw [h.has] at hu
  unfold State.step
  rw [h.up, h.prot]
  by_cases hc : s.Used t b i ∧ s.Sees t b u
  · have hl := h.seen b i u hc.1 hc.2
    have htn := hs.guard t ht
    have hup : s.up r t = true := by
      rcases hw with rfl | hw
      · cases e : s.up r t
        · have := ha.2.2 t ⟨htn, hc.1.1.symm⟩
          unfold State.step at this
          rw [e, ht] at this
          rcases hcell : s.cell b i t with ⟨q, a⟩
          rw [hcell] at this
          have hacc : a = true := by have := hc.1.2.2; rw [hcell] at this; exact this
          subst hacc
          cases q <;> cases this
        · rfl
      · exact hw
    have e : s.up r u = s.up t u := by
      cases e : s.up t u
      · cases e' : s.up r u
        · rfl
        · rcases hs.line r t u hr hup e' with h1 | h1
          · rw [e] at h1; cases h1
          · rcases hc.2.2 with h2 | rfl
            · rw [h1] at h2; cases h2
            · rw [hs.self u htn] at e; cases e
      · exact hs.trans r t u hr hup e
    have := ha.2.2 u hu
    unfold State.step at this
    unfold State.last State.step at hl
    rw [e] at this ⊢
    exact Cell.step_again hl this
  · rw [h.same b i u hc]; exact ha.2.2 u hu

/-- `s'` is the state after the return from the innermost call. -/
structure Back (s s' : State) : Prop where
  sound : Sound s
  ret : s.ret = some s'

theorem releaseAll_some {ts : List Nat} {s s' : State} (h : State.releaseAll ts s = some s') (hs : Sound s) (ht : ∀ t ∈ ts, s.prot t = true) :
    Sound s' ∧ s'.mem = s.mem ∧ s'.next = s.next ∧ s'.guard = s.guard ∧ s'.home = s.home ∧ s'.up = s.up ∧ s'.freed = s.freed ∧
      ∀ {w : Bool} {r b i : Nat}, r < s.next → (w = true ∨ ∀ t ∈ ts, s.up r t = true) → Allowed s w r b i → Allowed s' w r b i := by
  induction ts generalizing s with
  | nil => cases h; exact ⟨hs, rfl, rfl, rfl, rfl, rfl, rfl, fun _ _ h => h⟩
  | cons t ts ih =>
    rw [State.releaseAll] at h
    split at h
    · rename_i s1 h1
      have h1 := release_some h1
      obtain ⟨a1, a2, a3, a4, a5, a6, a6', a7⟩ := ih h (h1.sound hs) fun t ht' => by rw [h1.prot]; exact ht t (.tail _ ht')
      refine ⟨a1, a2.trans h1.mem, a3.trans h1.next, a4.trans h1.guard, a5.trans h1.home, a6.trans h1.up, a6'.trans h1.freed, fun hr hw ha => a7 (by rw [h1.next]; exact hr) ?_ (h1.allowed hs (ht t (.head _)) hr ?_ ha)⟩
      · rw [h1.up]; exact hw.imp id fun h t ht => h t (.tail _ ht)
      · exact hw.imp id fun h => h t (.head _)
    · cases h

theorem prot_head {s : State} {t : Nat} (h : t ∈ s.guard.headD []) : s.prot t = true := by
  unfold State.prot
  cases hg : s.guard with
  | nil => rw [hg] at h; cases h
  | cons l g =>
    rw [hg] at h
    rw [List.any_cons, show l.contains t = true from List.contains_iff_mem.2 h, Bool.true_or]

theorem prot_tail {s s' : State} (h : s'.guard = s.guard.tail) {u : Nat} (hu : s'.prot u = true) : s.prot u = true := by
  unfold State.prot at hu ⊢
  rw [h] at hu
  cases hg : s.guard with
  | nil => rw [hg] at hu; exact hu
  | cons l g => rw [hg] at hu; rw [List.any_cons, Bool.or_eq_true]; exact .inr hu

namespace Back
variable {s s' : State}

theorem facts (h : Back s s') : Sound s' ∧ s'.mem = s.mem ∧ s'.next = s.next ∧ s'.guard = s.guard.tail ∧ s'.home = s.home ∧ s'.up = s.up ∧ s'.freed = s.freed ∧
      ∀ {w : Bool} {r b i : Nat}, r < s.next → (w = true ∨ ∀ t ∈ s.guard.headD [], s.up r t = true) → Allowed s w r b i → Allowed s' w r b i := by
  obtain ⟨s1, h1, rfl⟩ := Option.map_eq_some_iff.1 h.ret
  obtain ⟨a1, a2, a3, a4, a5, a6, a6', a7⟩ := releaseAll_some h1 h.sound fun t ht => prot_head ht
  refine ⟨⟨fun u hu => a1.guard u (prot_tail rfl hu), a1.alloc, a1.self, a1.old, a1.home, a1.trans, a1.line⟩, a2, a3, by rw [← a4], a5, a6, a6', fun {w r b i} hr hw ha => ?_⟩
  have ha := a7 hr hw ha
  refine ⟨ha.1, ha.2.1, fun u hu => ?_⟩
  have hb := ha.2.2 u hu
  show ((s1.cell b i u).step w (s1.up r u) (State.prot { s1 with guard := s1.guard.tail } u)).isSome
  unfold State.step at hb
  cases e : State.prot { s1 with guard := s1.guard.tail } u
  · cases e' : s1.prot u
    · rw [e'] at hb; exact hb
    · rw [e'] at hb; exact Cell.step_unprot hb
  · rw [prot_tail (s := s1) rfl e] at hb; exact hb

theorem place (h : Back s s') (p : Ptr) : place s' p = place s p := by unfold Tree.place; rw [h.facts.2.2.2.2.1]

theorem made (h : Back s s') {s0 : State} {q r : Nat} (hm : Made s0 s q r) : Made s0 s' q r := by
  obtain ⟨-, -, a3, -, -, a6, -, -⟩ := h.facts
  exact ⟨hm.lo, by rw [a3]; exact hm.hi, by rw [a6]; exact hm.line⟩

theorem mutable (h : Back s s') {p : Ptr} {n : Nat} (hm : Mutable s p n) : Mutable s' p n := ⟨by rw [h.facts.2.2.1]; exact hm.1, fun b i hi => by
  rw [h.place] at hi
  exact h.facts.2.2.2.2.2.2.2 hm.1 (.inl rfl) (hm.2 b i hi)⟩

theorem readable (h : Back s s') {p : Ptr} {n : Nat} (hg : ∀ t ∈ s.guard.headD [], s.up p.buf t = true) (hm : Readable s p n) : Readable s' p n :=
  ⟨by rw [h.facts.2.2.1]; exact hm.1, fun b i hi => by
    rw [h.place] at hi
    exact h.facts.2.2.2.2.2.2.2 hm.1 (.inr hg) (hm.2 b i hi)⟩

theorem derived (h : Back s s') {s0 : State} {p r : Ptr} (hm : Derived s0 s p r) : Derived s0 s' p r :=
  ⟨h.made hm.toMade, hm.off, by rw [h.facts.2.2.2.2.1]; exact hm.home⟩

end Back

/-! ### Function calls -/

/-- A loan with a reference of the given kind. -/
def lent (k : Kind) (t : Nat) : Loan := if k = .mut then .excl t else .shared t

theorem lent_of (k : Kind) (t : Nat) : Of t (lent k t) := by cases k; exact .inr rfl; exact .inl rfl

theorem lent_cases {k : Kind} {t t' : Nat} {w : Bool} (h : lent k t = .excl t' ∨ lent k t = .shared t' ∧ w = false) : t' = t ∧ (w = true → k = .mut) := by
  cases k <;> rcases h with h | ⟨h, rfl⟩ <;> cases h <;> exact ⟨rfl, by simp⟩

theorem lent_allows (k : Kind) (t : Nat) {w : Bool} (h : w = true → k = .mut) : lent k t = .excl t ∨ lent k t = .shared t ∧ w = false := by
  cases k
  · exact .inl rfl
  · cases w
    · exact .inr ⟨rfl, rfl⟩
    · cases h rfl

/-- What a function does with its own reference is, for the caller, done with the reference it passed, and the end of the call adds nothing. -/
theorem call_after {k : Kind} {s s1 s2 : State} {p : Ptr} {n : Nat} {G : Nat → Nat → Loan} (hs : Sound s) (hp : p.buf < s.next) (hG : ∀ b i t, Of t (G b i) → t < s.next)
    (h : Retagged { s with guard := [] :: s.guard } s1 true k p n) (hs1 : Sound s1) (h2 : AfterCall s1 s2 (over (place s p) n (lent k s.next) G)) :
    ∃ s3, s2.ret = some s3 ∧ s3.mem = s2.mem ∧ AfterCall s s3 (over (place s p) n (lent k p.buf) G) := by
  have hn : s1.next = s.next + 1 := h.next
  have hg1 : s1.guard = [s.next] :: s.guard := h.guard
  have hg2 : s2.guard = [s.next] :: s.guard := h2.guard.trans hg1
  have hp0 : ∀ u, State.prot { s with guard := [] :: s.guard } u = s.prot u := fun u => by simp [State.prot]
  have hp1 : ∀ u, u ≠ s.next → s1.prot u = s.prot u := fun u hu => (h.prot_old hu).trans (hp0 u)
  have hp2 : ∀ u, s2.prot u = s1.prot u := prot_eq h2.guard
  have hnew : s1.home s.next = s.home p.buf := h.home_new
  have hold : ∀ {t}, t < s.next → s1.home t = s.home t := fun ht => h.home_old ht
  have hupn : ∀ u, u ≠ s.next → s1.up s.next u = s.up p.buf u := fun u hu => by
    have := h.up_new u
    rw [this]; show (decide (u = s.next) || s.up p.buf u) = _
    rw [decide_eq_false hu]; rfl
  have hupo : ∀ {t}, t < s.next → s1.up t = s.up t := fun ht => h.up_old ht
  have has1 : ∀ {b u}, s.Has b u → s1.Has b u := fun hu => h.has hu
  have hself : s1.up s.next s.next = true := hs1.self _ (by omega)
  -- bytes of the reference: some access through the new tag
  have hin : ∀ b i, In (place s p) n b i → ∃ w, (w = true → k = .mut) ∧ Accessed s1 w s.next b (s1.cell b i) (s2.cell b i) ∧ ((s2.cell b i s.next).perm = .active ↔ w = true) := by
    intro b i hi
    have hb : s1.Has b s.next := ⟨by omega, hnew.trans hi.1.symm⟩
    obtain ⟨c1, c2⟩ := h.new b i
    have hcell : s1.cell b i s.next = ⟨k.perm, true⟩ := by
      rcases hc : s1.cell b i s.next with ⟨q, a⟩
      have c1 : (s1.cell b i s.next).perm = k.perm := c1
      have c2 : (s1.cell b i s.next).acc = true := c2.2 hi
      rw [hc] at c1 c2
      cases c1; cases c2; rfl
    have h0 : Accessed s1 false s.next b (s1.cell b i) (s1.cell b i) := fun u hu => by
      by_cases e : u = s.next
      · subst e
        rw [hcell, hself]
        cases k <;> cases s1.prot s.next <;> rfl
      · have hu' : s.Has b u := ⟨by have := hu.1; omega, (hold (by have := hu.1; omega)).symm.trans hu.2⟩
        rw [hupn u e, hp1 u e]
        have := Cell.step_idem (h.inside b i hi u hu')
        rw [hp0] at this
        exact this
    have hc := h2.cell b i
    rw [over_in hi] at hc
    have fin : ∀ w, (w = true → k = .mut) → Accessed s1 w s.next b (s1.cell b i) (s2.cell b i) → ((s2.cell b i s.next).perm = .active ↔ w = true) := fun w hw ha => by
      have := ha _ hb
      rw [hcell, hself] at this
      cases w
      · revert this
        cases k <;> cases s1.prot s.next <;> intro this <;> rw [← Option.some.inj this] <;> decide
      · rw [hw rfl] at this
        revert this
        cases s1.prot s.next <;> intro this <;> rw [← Option.some.inj this] <;> decide
    rcases hc.cases' with hc | ⟨w, t, hc, hl⟩
    · have := h0.right hc
      exact ⟨false, by simp, this, fin false (by simp) this⟩
    · obtain ⟨rfl, hw⟩ := lent_cases hl
      exact ⟨w, hw, hc, fin w hw hc⟩
  -- other bytes have not been accessed through it
  have hout : ∀ b i, s2.Used s.next b i → In (place s p) n b i := by
    rintro b i ⟨h1, -, h3⟩
    by_contra hi
    have hb : s1.Has b s.next := ⟨by omega, (h2.home _ (by omega)).symm.trans h1.symm⟩
    have e : (s1.cell b i s.next).acc = false := by
      cases e : (s1.cell b i s.next).acc
      · rfl
      · exact absurd ((h.new b i).2.1 e) hi
    have hc := h2.cell b i
    rw [over_out hi] at hc
    rcases hc.cases' with hc | ⟨w, t, hc, hl⟩
    · rw [hc _ hb, e] at h3; cases h3
    · have ht := hG b i t (hl.elim .inr fun h => .inl h.1)
      have := Cell.step_acc (hc _ hb)
      rw [h3, e] at this
      cases e' : s1.up t s.next
      · rw [e'] at this; cases this
      · exact absurd (hs1.old t _ (by omega) e') (by omega)
  have hlast : ∀ b i u, s2.Used s.next b i → s1.Has b u → s2.last s.next b i u = some (s2.cell b i u) := fun b i u h1 hu => by
    obtain ⟨w, hw, ha, hact⟩ := hin b i (hout b i h1)
    unfold State.last State.step
    rw [h2.up _ (by omega), hp2, show decide ((s2.cell b i s.next).perm = .active) = w from by cases w <;> simp [hact]]
    exact Cell.step_idem (ha u hu)
  obtain ⟨s3, hr, hR⟩ := release_ok (s := s2) (t := s.next) fun b i u h1 hu => by
    by_cases hn' : u < s1.next
    · rw [hlast b i u h1 ⟨hn', (h2.home u hn').symm.trans hu.1.2⟩]; rfl
    · unfold State.last State.step
      rw [h2.fresh u (by omega)]
      cases e : s2.up s.next u
      · exact Cell.step_foreign _
      · exact absurd (h2.sound.old _ u (by have := h2.next; omega) e) (by omega)
  refine ⟨{ s3 with guard := s.guard }, ?_, hR.mem, ?_⟩
  · unfold State.ret
    rw [hg2]
    show Option.map _ (State.releaseAll [s.next] s2) = _
    rw [State.releaseAll, hr]
    show some { s3 with guard := s3.guard.tail } = some _
    rw [hR.guard, hg2]; rfl
  · have hs3 := hR.sound h2.sound
    have hcell : ∀ b i u, s.Has b u → s3.cell b i u = s2.cell b i u := fun b i u hu => by
      by_cases hc : s2.Used s.next b i ∧ s2.Sees s.next b u
      · have e := hR.seen b i u hc.1 hc.2
        rw [hlast b i u hc.1 (has1 hu)] at e
        exact (Option.some.inj e).symm
      · exact hR.same b i u hc
    refine ⟨⟨fun u hu => ?_, hs3.alloc, hs3.self, hs3.old, hs3.home, hs3.trans, hs3.line⟩, ?_, rfl, fun t ht => ?_, fun t ht => ?_, fun t ht => ?_, ?_, fun b u hb => ?_, fun b u hb => ?_, fun b hb => ?_, fun b i => ?_⟩
    · have : u < s.next := hs.guard u hu
      show u < s3.next
      rw [hR.next]; have := h2.next; omega
    · show s.next ≤ s3.next
      rw [hR.next]; have := h2.next; omega
    · show s.prot t = false
      cases e : s.prot t
      · rfl
      · exact absurd (hs.guard t e) (by omega)
    · show s3.home t = _
      rw [hR.home, h2.home t (by omega), hold ht]
    · show s3.up t = _
      rw [hR.up, h2.up t (by omega), hupo ht]
    · show _ ≤ s3.mem.nbuf
      rw [hR.mem]; have := h2.nbuf; rw [h.mem] at this; exact this
    · show s3.mem.size b = _
      rw [hR.mem, h2.size b u (has1 hb), h.mem]
    · show s3.freed b = _
      rw [hR.freed, h2.live b u (has1 hb), h.freed]
    · show s3.freed b = _
      rw [hR.freed, h2.kept b (by rw [h.mem]; exact hb), h.freed]
    · have key : ∀ {w : Bool} {t r : Nat}, (∀ u, u < s.next → s1.up r u = s.up t u) → Accessed s1 w r b (s1.cell b i) (s2.cell b i) → Accessed s w t b (s1.cell b i) (s3.cell b i) :=
        fun {w t r} hup ha u hu => by
          have := ha u (has1 hu)
          rw [hup u hu.1, hp1 u (by have := hu.1; omega)] at this
          rw [hcell b i u hu]; exact this
      by_cases hi : In (place s p) n b i
      · rw [over_in hi]
        obtain ⟨w, hw, ha, -⟩ := hin b i hi
        have a0 : Accessed s false p.buf b (s.cell b i) (s1.cell b i) := fun u hu => by
          have := h.inside b i hi u hu
          rw [hp0] at this
          exact this
        have := a0.trans (key (t := p.buf) (fun u hu => hupn u (by omega)) ha)
        rw [Bool.false_or] at this
        exact .of this (lent_allows k _ hw)
      · rw [over_out hi]
        have a0 : Same s b (s.cell b i) (s1.cell b i) := h.outside b i hi
        have hc := h2.cell b i
        rw [over_out hi] at hc
        rcases hc.cases' with hc | ⟨w, t, hc, hl⟩
        · exact .inl fun u hu => (hcell b i u hu).trans ((hc u (has1 hu)).trans (a0 u hu))
        · have ht := hG b i t (hl.elim .inr fun h => .inl h.1)
          exact .of (a0.left (key (fun u _ => by rw [hupo ht]) hc)) hl

theorem sound_enter {s : State} (hs : Sound s) : Sound { s with guard := [] :: s.guard } :=
  ⟨fun u hu => hs.guard u (by simpa [State.prot] using hu), hs.alloc, hs.self, hs.old, hs.home, hs.trans, hs.line⟩

/-- A call whose argument is a reference to the `n` bytes at `p`: what the body does with its own reference, the call does with that of the caller. -/
theorem call_sim {k : Kind} {body : Ptr → BProg α} {s : State} {p : Ptr} {n : Nat} {G : Nat → Nat → Loan} {o : Out β} {Q : α → β → State → Prop} {E : State → Prop}
    (hs : Sound s) (hG : ∀ b i t, Of t (G b i) → t < s.next) (hr : Readable s p n)
    (hb : ∀ s1, s1.mem = s.mem → Sound s1 → Retagged { s with guard := [] :: s.guard } s1 true k p n → Sim (body ⟨s.next, p.off⟩ s1) o
      (fun a b s2 => AfterCall s1 s2 (over (place s p) n (lent k s.next) G) ∧ ∀ s3, Back s2 s3 → Q a b s3)
      (fun s2 => AfterCall s1 s2 (over (place s p) n (lent k s.next) G) ∧ ∀ s3, Back s2 s3 → E s3)) :
    Sim (call (arg k p n >>= body) s) o (fun a b s' => AfterCall s s' (over (place s p) n (lent k p.buf) G) ∧ Q a b s')
      (fun s' => AfterCall s s' (over (place s p) n (lent k p.buf) G) ∧ E s') := by
  have hr' : Readable { s with guard := [] :: s.guard } p n := ⟨hr.1, fun b i hi => ⟨(hr.2 b i hi).1, (hr.2 b i hi).2.1, fun u hu => by
    have := (hr.2 b i hi).2.2 u hu
    unfold State.step at this ⊢
    rw [show State.prot { s with guard := [] :: s.guard } u = s.prot u from by simp [State.prot]]
    exact this⟩⟩
  have hsim : Sim ((arg k p n >>= body) { s with guard := [] :: s.guard }) o
      (fun a b s2 => ∃ s3, s2.ret = some s3 ∧ s3.mem = s2.mem ∧ AfterCall s s3 (over (place s p) n (lent k p.buf) G) ∧ Q a b s3)
      (fun s2 => ∃ s3, s2.ret = some s3 ∧ s3.mem = s2.mem ∧ AfterCall s s3 (over (place s p) n (lent k p.buf) G) ∧ E s3) := by
    refine Sim.left (x := arg k p n) (E' := fun _ => False) (retag_sim (s := { s with guard := [] :: s.guard }) hr') fun r s1 hm h => ?_
    obtain ⟨rfl, h⟩ := h
    have hs1 := h.sound (sound_enter hs) hr.1
    refine (hb s1 hm hs1 h).mono (fun a b s2 h2 => ?_) fun s2 h2 => ?_
    · obtain ⟨s3, e1, e2, e3⟩ := call_after hs hr.1 hG h hs1 h2.1
      exact ⟨s3, e1, e2, e3, h2.2 s3 ⟨h2.1.sound, e1⟩⟩
    · obtain ⟨s3, e1, e2, e3⟩ := call_after hs hr.1 hG h hs1 h2.1
      exact ⟨s3, e1, e2, e3, h2.2 s3 ⟨h2.1.sound, e1⟩⟩
  unfold call
  revert hsim
  cases (arg k p n >>= body) { s with guard := [] :: s.guard } <;> cases o <;> intro hsim <;> first | exact hsim.elim | trivial | skip
  · obtain ⟨e, s3, e1, e2, e3⟩ := hsim
    simp only [e1]
    exact ⟨e2.trans e, e3⟩
  · obtain ⟨e, s3, e1, e2, e3⟩ := hsim
    simp only [e1]
    exact ⟨e2.trans e, e3⟩

end Simd.Tree
