import Verif.Spec.TreeHeap
import Verif.Lemmas.TreeFns
import Verif.Lemmas.BorrowOwn
/-
Owners with borrow trees: allocation, deallocation, and turning one owner into another.
-/
namespace Simd.Tree
open Spec

variable {α β γ δ : Type} {s s1 s2 : State} {p q P Q : Ptr} {n m d : Nat} {G : Nat → Nat → Loan}

namespace Sim

/-- The run without borrow trees is known. -/
theorem withRun {r : Result α} {y : Prog β} {m : Mem} {Q : α → β → State → Prop} {E : State → Prop} (h : Sim r (y.run m) Q E) :
    Sim r (y.run m) (fun a b s' => Q a b s' ∧ y.run m = .ok b s'.mem) (fun s' => E s' ∧ y.run m = .err s'.mem) := by
  cases r <;> cases hy : y.run m <;> rw [hy] at h <;> first | exact h.elim | trivial | exact ⟨h.1, h.2, by rw [h.1]⟩

theorem noErr {r : Result α} {y : Prog β} {m : Mem} {Q : α → β → State → Prop} {E E' : State → Prop} (h : Sim r (y.run m) Q E) (hn : ∀ m', y.run m ≠ .err m') : Sim r (y.run m) Q E' := by
  cases r <;> cases hy : y.run m <;> rw [hy] at h <;> first | exact h.elim | trivial | exact h | exact absurd hy (hn _)

/-- `?` with something to drop. -/
theorem orDrop {x : BProg α} {drop : BProg Unit} {o : Out β} {Q : α → β → State → Prop} {E E' E'' : State → Prop} (h : Sim (x s) o Q E)
    (hd : ∀ s', E s' → Sim (drop s') (.ok () s'.mem) (fun _ _ s'' => E' s'') E'') : Sim (orDrop x drop s) o Q E' := by
  unfold Tree.orDrop
  cases hx : x s with
  | ok a s' => rw [hx] at h; cases o <;> first | exact h.elim | exact h
  | err s' =>
    rw [hx] at h
    cases o with
    | err m' =>
      obtain ⟨rfl, h⟩ := h
      have := hd s' h
      dsimp only
      cases hdr : drop s' <;> rw [hdr] at this <;> first | exact this.elim | exact this
    | _ => exact h.elim
  | panic => rw [hx] at h; cases o <;> first | exact h.elim | trivial
  | ub => rw [hx] at h; cases o <;> exact h.elim

/-- `Result` as a value. -/
theorem attempt {x : BProg α} {y : Prog β} {m : Mem} {Q : α → β → State → Prop} {E E' : State → Prop} (h : Sim (x s) (y.run m) Q E) :
    Sim (attempt x s) (y.attempt.run m) (fun a b s' => (∃ a' b', a = some a' ∧ b = some b' ∧ Q a' b' s' ∧ y.run m = .ok b' s'.mem) ∨ a = none ∧ b = none ∧ E s' ∧ y.run m = .err s'.mem) E' := by
  rw [run_attempt]
  unfold Tree.attempt
  cases hx : x s <;> cases hy : y.run m <;> rw [hx, hy] at h <;> first | exact h.elim | trivial | skip
  · obtain ⟨rfl, h⟩ := h; exact ⟨rfl, .inl ⟨_, _, rfl, rfl, h, rfl⟩⟩
  · obtain ⟨rfl, h⟩ := h; exact ⟨rfl, .inr ⟨rfl, rfl, h, rfl⟩⟩

theorem padd {k : Nat} (h : (Simd.padd (place s p) k).run s.mem ≠ .ub) {E : State → Prop} :
    Sim (prog (Simd.padd p k) s) ((Simd.padd (place s p) k).run s.mem) (fun _ _ s' => s' = s) E := by
  have e : (Simd.padd (place s p) k).run s.mem = if p.off + k ≤ s.mem.size (s.home p.buf) then .ok () s.mem else .ub := rfl
  have e' : prog (Simd.padd p k) s = if p.off + k ≤ s.mem.size (s.home p.buf) then .ok () s else .ub := rfl
  rw [e] at h ⊢
  rw [e']
  split at h
  · rename_i hc; rw [if_pos hc, if_pos hc]; exact ⟨rfl, rfl⟩
  · exact absurd rfl h

/-- A step of the program with borrow trees only, after one of both. -/
theorem after {x : BProg α} {f : α → BProg γ} {o : Out β} {Q : α → β → State → Prop} {E E' : State → Prop} {Q' : γ → β → State → Prop} (h : Sim (x s) o Q E)
    (hf : ∀ a b s', Q a b s' → Sim (f a s') (.ok () s'.mem) (fun c _ s'' => Q' c b s'') E') : Sim ((x >>= f) s) o Q' E := by
  show Sim (BProg.bind x f s) _ _ _
  unfold BProg.bind
  cases hx : x s with
  | ok a s' =>
    rw [hx] at h
    cases o with
    | ok b m =>
      obtain ⟨rfl, h⟩ := h
      have := hf a b s' h
      dsimp only
      cases hf' : f a s' <;> rw [hf'] at this <;> first | exact this.elim | exact this
    | _ => exact h.elim
  | err s' => rw [hx] at h; cases o <;> first | exact h.elim | exact h
  | panic => rw [hx] at h; cases o <;> first | exact h.elim | trivial
  | ub => rw [hx] at h; cases o <;> exact h.elim

end Sim

/-! ### Deallocation and the rest of the state -/

theorem Sound.setFreed (h : Sound s) (f : Nat → Bool) : Sound { s with freed := f } := ⟨h.guard, h.alloc, h.self, h.old, h.home, h.trans, h.line⟩

theorem Sound.ofFreed {f : Nat → Bool} (h : Sound { s with freed := f }) : Sound s := ⟨h.guard, h.alloc, h.self, h.old, h.home, h.trans, h.line⟩

/-- What has been deallocated before makes no difference to what a step does. -/
theorem AfterCall.setFreed (h : AfterCall s s1 G) (f : Nat → Bool) : AfterCall { s with freed := f } { s1 with freed := f } G :=
  ⟨h.sound.setFreed f, h.next, h.guard, h.fresh, h.home, h.up, h.nbuf, h.size, fun _ _ _ => rfl, fun _ _ => rfl, h.cell⟩

theorem AfterCall.heap (h : AfterCall s s1 G) : AfterHeap s s1 G :=
  ⟨h.sound.setFreed _, h.next, h.guard, h.fresh, h.home, h.up, h.nbuf, h.size, fun _ _ _ => rfl, fun _ _ => rfl, h.cell⟩

/-- A step that deallocated nothing. -/
theorem AfterHeap.call (h : AfterHeap s s1 G) (hs : Sound s) (hl : ∀ b, b < s.mem.nbuf → s1.freed b = s.freed b) : AfterCall s s1 G :=
  ⟨h.sound.ofFreed, h.next, h.guard, h.fresh, h.home, h.up, h.nbuf, h.size, fun b u hu => hl b (by rw [← hu.2]; exact hs.alloc u hu.1), hl, h.cell⟩

theorem AfterHeap.has (h : AfterHeap s s1 G) {b u : Nat} (hu : s.Has b u) : s1.Has b u := ⟨Nat.lt_of_lt_of_le hu.1 h.next, (h.home u hu.1).trans hu.2⟩

theorem Made.setFreed {t r : Nat} (h : Made s s1 t r) (f : Nat → Bool) : Made s { s1 with freed := f } t r := ⟨h.lo, h.hi, h.line⟩

theorem Fits.setFreed {l l' : Loan} (h : Fits s s1 l l') (f : Nat → Bool) : Fits s { s1 with freed := f } l l' := by
  rcases h with h | h | h | ⟨t, r, h1, h2, h3⟩ | ⟨t, r, h1, h2, h3⟩
  · exact .inl h
  · exact .inr (.inl h)
  · exact .inr (.inr (.inl h))
  · exact .inr (.inr (.inr (.inl ⟨t, r, h1, h2, h3.setFreed f⟩)))
  · exact .inr (.inr (.inr (.inr ⟨t, r, h1, h2, h3.setFreed f⟩)))

/-- A step that may deallocate, and one more. -/
theorem AfterHeap.pushN {G' : Nat → Nat → Loan} (h1 : AfterHeap s s1 G) (h2 : AfterHeap s1 s2 G') (ht : ∀ b i t, Of t (G b i) → t < s.next) (hG : ∀ b i u, s.Has b u → Fits s s1 (G b i) (G' b i)) :
    AfterHeap s s2 G :=
  AfterCall.pushN h1 (AfterCall.setFreed h2 s.freed) ht fun b i u hu => (hG b i u hu).setFreed _

theorem AfterHeap.weaken {G' : Nat → Nat → Loan} (h : AfterHeap s s1 G) (hG : ∀ b i, G b i = .none ∨ G b i = G' b i) : AfterHeap s s1 G' := AfterCall.weaken h hG

theorem Allowed.ofFreed {f : Nat → Bool} {w : Bool} {t b i : Nat} (h : Allowed { s with freed := f } w t b i) (hf : s.freed b = f b) : Allowed s w t b i := ⟨h.1, hf.trans h.2.1, h.2.2⟩

theorem Mutable.ofFreed {f : Nat → Bool} (h : Mutable { s with freed := f } p n) (hf : s.freed (s.home p.buf) = f (s.home p.buf)) : Mutable s p n :=
  ⟨h.1, fun b i hi => (h.2 b i hi).ofFreed (by rw [hi.1]; exact hf)⟩

theorem Readable.ofFreed {f : Nat → Bool} (h : Readable { s with freed := f } p n) (hf : s.freed (s.home p.buf) = f (s.home p.buf)) : Readable s p n :=
  ⟨h.1, fun b i hi => (h.2 b i hi).ofFreed (by rw [hi.1]; exact hf)⟩

/-- An access to memory, as the tags see it. -/
theorem access_after {w : Bool} {S : Nat → Nat → Nat → Cell} {l : Loan} {μ : Mem} (hs : Sound s) (h2 : ∀ b i, In (place s p) n b i → Accessed s w p.buf b (s.cell b i) (S b i))
    (h3 : ∀ b i, ¬ In (place s p) n b i → S b i = s.cell b i) (hl : l = .excl p.buf ∨ l = .shared p.buf ∧ w = false) (hn : μ.nbuf = s.mem.nbuf) (hz : μ.size = s.mem.size) :
    AfterCall s { s with cell := S, mem := μ } (over (place s p) n l nothing) := by
  refine ⟨⟨hs.guard, fun t ht => Nat.lt_of_lt_of_eq (hs.alloc t ht) hn.symm, hs.self, hs.old, hs.home, hs.trans, hs.line⟩, Nat.le_refl _, rfl, (AfterCall.refl hs nothing).fresh, fun _ _ => rfl, fun _ _ => rfl, Nat.le_of_eq hn.symm,
    fun b _ _ => congrFun hz b, fun _ _ _ => rfl, fun _ _ => rfl, fun b i => ?_⟩
  by_cases hi : In (place s p) n b i
  · rw [over_in hi]; exact .of (h2 b i hi) hl
  · refine .inl fun u _ => ?_
    show S b i u = _
    rw [h3 b i hi]

/-- Nothing is left of what was allocated since `s`. -/
def Clear (s s' : State) : Prop := ∀ b, s.mem.nbuf ≤ b → b < s'.mem.nbuf → Freed s' b

theorem Back.freed {b : Nat} (h : Back s s1) (hf : Freed s b) : Freed s1 b := by
  obtain ⟨-, a2, -, -, -, -, a7, -⟩ := h.facts
  unfold Freed
  rw [a2, a7]; exact hf

/-- `dealloc` of an allocation that is owned. -/
theorem dealloc_sim (hs : Sound s) (h : Owns s p n) {E : State → Prop} :
    Sim (dealloc p n s) (.ok () s.mem) (fun _ _ s' => AfterHeap s s' (G1 (place s p) n p.buf) ∧ Freed s' (s.home p.buf) ∧ ∀ b, b ≠ s.home p.buf → s'.freed b = s.freed b) E := by
  unfold dealloc
  rw [if_pos ⟨h.start, h.size, fun u h1 h2 => h.unprotected u ⟨h1, h2⟩⟩]
  obtain ⟨S, h1, h2, h3⟩ := touch_ok h.mutable.2
  rw [h1]
  exact ⟨rfl, access_after hs h2 h3 (.inl rfl) rfl rfl, .inl (if_pos rfl), fun b hb => if_neg hb⟩

/-- Dropping an owner: afterwards its allocation is freed. -/
theorem drop_sim {x : BProg Unit} (hx : x = if n = 0 then pure () else dealloc p n) (hs : Sound s) (h : Owns s p n) {E : State → Prop} :
    Sim (x s) (.ok () s.mem) (fun _ _ s' => AfterHeap s s' (G1 (place s p) n p.buf) ∧ Freed s' (s.home p.buf) ∧ ∀ b, b ≠ s.home p.buf → s'.freed b = s.freed b) E := by
  subst hx
  split
  · rename_i hn
    exact ⟨rfl, (AfterCall.refl hs _).heap, .inr (h.size.trans hn), fun _ _ => rfl⟩
  · exact dealloc_sim hs h

/-! ### From owner to owner -/

/-- `f` turns a pointer that may be written through into a new one made from it. -/
def Step (n : Nat) (f : Ptr → BProg Ptr) : Prop :=
  ∀ s p, Sound s → Mutable s p n → Sim (f p s) (.ok () s.mem) (fun r _ s' => AfterCall s s' (G1 (place s p) n p.buf) ∧ Derived s s' p r ∧ Mutable s' r n) (fun _ => True)

theorem step_mut : Step n fun p => retag .mut p n := fun _ _ hs h => slice_mut_sim hs h

theorem Step.seq {f g : Ptr → BProg Ptr} (hf : Step n f) (hg : Step n g) : Step n fun p => f p >>= g := fun s p hs h => by
  refine Sim.left (hf s p hs h) ?_
  rintro r s1 hm ⟨h1, h2, h3⟩
  rw [← hm]
  refine (hg s1 r h1.sound h3).mono ?_ fun _ h => h
  rintro r' _ s2 ⟨h4, h5, h6⟩
  rw [h2.place] at h4
  exact ⟨h1.push h4 (tag1 h.1) (G1_new (Nat.le_refl _) h2.toMade), h2.trans h1.next h5, h6⟩

/-- A function that gets an owner or a `&mut`. -/
theorem Step.call_sim {f : Ptr → BProg Ptr} (hf : Step n f) (hs : Sound s) (hm : Mutable s p n) :
    Sim (call (arg .mut p n >>= f) s) (.ok () s.mem) (fun r _ s' => AfterCall s s' (G1 (place s p) n p.buf) ∧ Derived s s' p r ∧ Mutable s' r n) (fun _ => True) := by
  refine (Tree.call_sim (k := .mut) (G := nothing) (o := .ok () s.mem) (Q := fun r _ s' => Derived s s' p r ∧ Mutable s' r n) (E := fun _ => True) hs nothing_tag hm.readable fun s1 hm1 hs1 h => ?_).mono
    (fun _ _ _ h => h) fun _ _ => trivial
  rw [← hm1]
  obtain ⟨hn, hd, hg, -⟩ := h.enter
  have key := hf s1 ⟨s.next, p.off⟩ hs1 (h.mutable (sound_enter hs) hm.enter)
  cases hx : f ⟨s.next, p.off⟩ s1 with
  | ok r s2 =>
    rw [hx] at key
    obtain ⟨e, h3, h4, h5⟩ := key
    have hpl : place s1 ⟨s.next, p.off⟩ = place s p := h.place_new
    rw [hpl] at h3
    exact ⟨e, h3, fun s3 hb => ⟨hb.derived (hd.trans (by omega) h4), hb.mutable h5⟩⟩
  | err | panic | ub => rw [hx] at key; exact key.elim

theorem Step.call {f : Ptr → BProg Ptr} (hf : Step n f) : Step n fun p => Tree.call (arg .mut p n >>= f) := fun _ _ hs h => hf.call_sim hs h

theorem step_into_raw : Step n fun p => into_raw p n := fun s p hs hm => by
  show Sim (Tree.call (arg .mut p n) s) _ _ _
  rw [← bind_ret (arg .mut p n)]
  refine (Tree.call_sim (k := .mut) (body := fun p => pure p) (G := nothing) (o := .ok () s.mem) (Q := fun r _ s' => Derived s s' p r ∧ Mutable s' r n) (E := fun _ => True) hs nothing_tag hm.readable fun s1 hm1 hs1 h => ?_).mono
    (fun _ _ _ h => h) fun _ _ => trivial
  rw [← hm1]
  obtain ⟨hn, hd, hg, -⟩ := h.enter
  exact Sim.ret_left ⟨.refl hs1 _, fun s3 hb => ⟨hb.derived hd, hb.mutable (h.mutable (sound_enter hs) hm.enter)⟩⟩

theorem step_from_raw : Step n fun p => from_raw p n := step_mut

theorem step_init : Step n fun p => into_raw p n >>= fun p => from_raw p n := step_into_raw.seq step_from_raw

theorem step_str : Step n fun p => into_raw p n >>= fun p => retag .mut p n >>= fun p => (Tree.call (arg .mut p n >>= fun p => retag .mut p n)) >>= fun p => from_raw p n :=
  step_into_raw.seq (step_mut.seq ((Step.call step_mut).seq step_from_raw))

end Simd.Tree
