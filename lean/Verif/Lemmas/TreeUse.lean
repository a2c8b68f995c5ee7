import Verif.Spec.TreeUse
import Verif.Lemmas.TreeVec
import Verif.Lemmas.Lend
import Verif.Props.TreeHeap
/-
What the steps of a program do to the variables and references it keeps, with borrow trees.
-/
namespace Simd.Tree

/-- An access through `t'` to a byte that a tag `t` may access (to write if `w`) leaves it so: through the tag of a descendant of `t`, or reading it while `t` may only read. -/
def Spare (s : State) (l : Loan) (w : Bool) (t : Nat) : Prop :=
  match l with
  | .none => True
  | .shared t' => t' < s.next ∧ (s.up t' t = true ∨ w = false)
  | .excl t' => t' < s.next ∧ s.up t' t = true

/-- After an access that is local, another one that would have been allowed before is allowed. -/
theorem Cell.step_local {w w' : Bool} {c c' : Cell} (h : c.step w' true false = some c') (hw : (c.step w true false).isSome) : (c'.step w true false).isSome := Cell.step_again h hw

/-- After a read, another read is allowed that would have been allowed before. -/
theorem Cell.step_read {loc loc' : Bool} {c c' : Cell} (h : c.step false loc' false = some c') (hw : (c.step false loc false).isSome) : (c'.step false loc false).isSome := by
  obtain ⟨q, a⟩ := c
  have hf : ∀ c : Cell, (c.step false false false).isSome := step_foreign
  revert h hw
  cases loc
  · exact fun _ _ => hf _
  · cases loc' <;> cases a <;>
      (first | (cases q with | reserved c => cases c <;> (intro h hw; cases h; first | rfl | exact hw) | _ => (intro h hw; first | exact absurd hw (by decide) | (cases h; rfl))))

theorem AfterCall.keep {s s1 : State} {G : Nat → Nat → Loan} (h : AfterCall s s1 G) (hs : Sound s) (hg : s.guard = []) {w : Bool} {t b i : Nat} (ht : s.Has b t) (hG : Spare s (G b i) w t)
    (ha : Allowed s w t b i) : Allowed s1 w t b i := by
  have hp : ∀ u, s.prot u = false := fun u => by unfold State.prot; rw [hg]; rfl
  refine ⟨by rw [h.size b t ht]; exact ha.1, by rw [h.live b t ht]; exact ha.2.1, fun u hu => ?_⟩
  unfold State.step
  by_cases hn : u < s.next
  · have hu' : s.Has b u := ⟨hn, (h.home u hn).symm.trans hu.2⟩
    have h1 := ha.2.2 u hu'
    unfold State.step at h1
    rw [h.up t ht.1, prot_eq h.guard, hp]
    rw [hp] at h1
    rcases (h.cell b i).cases' with e | ⟨w', t', e, hl⟩
    · rw [e u hu']; exact h1
    · have e := e u hu'
      rw [hp] at e
      cases hut : s.up t u with
      | false => exact Cell.step_foreign _
      | true =>
        rw [hut] at h1
        have hup : t' < s.next ∧ s.up t' t = true → ((s1.cell b i u).step w true false).isSome := fun ⟨h2, h3⟩ => by
          rw [hs.trans t' t u h2 h3 hut] at e
          exact Cell.step_local e h1
        rcases hl with hl | ⟨hl, rfl⟩
        · rw [hl] at hG; exact hup hG
        · rw [hl] at hG
          rcases hG.2 with h3 | rfl
          · exact hup ⟨hG.1, h3⟩
          · exact Cell.step_read e h1
  · rw [h.fresh u (by omega)]
    cases e : s1.up t u
    · exact Cell.step_foreign _
    · exact absurd (h.sound.old t u (Nat.lt_of_lt_of_le ht.1 h.next) e) (by have := ht.1; omega)

end Simd.Tree

namespace Simd.Tree.Use
open Spec
open Lend (Ref)
open Client (IsText)

/-- A reference to memory that `o` owns. -/
structure RefOk (s : State) (o : Owned) (ρ : Ref) : Prop where
  tag : ρ.tag < s.next
  home : s.home ρ.tag = s.home (Spec.ownerOf o).1.buf
  within : ρ.off + ρ.len ≤ (Spec.ownerOf o).2
  text : ρ.excl = true → IsText o → ρ.len = 0
  content : ρ.init = true → ∃ xs, xs.length = ρ.len ∧ Reads s.mem (place s ⟨ρ.tag, ρ.off⟩) xs
  allowed : ∀ i, ρ.off ≤ i → i < ρ.off + ρ.len → Allowed s ρ.excl ρ.tag (s.home ρ.tag) i
  older : (Spec.ownerOf o).1.buf < ρ.tag
  up : s.up ρ.tag (Spec.ownerOf o).1.buf = true

/-- What holds at every step: what the variables hold is valid; no two share an allocation; whatever they do not hold has been deallocated; the references are valid; and of two references to a byte, the younger
one was made from the older one if that is a `&mut`, and is a `&` if that is one. -/
structure Inv (P : Plat) (w : World) : Prop where
  sound : Sound w.st
  guard : w.st.guard = []
  valid : ∀ x o, w.vars x = some o → Valid P w.st o
  apart : ∀ x y o o', w.vars x = some o → w.vars y = some o' → w.st.home (Spec.ownerOf o).1.buf = w.st.home (Spec.ownerOf o').1.buf → x = y
  freed : ∀ b, b < w.st.mem.nbuf → (∀ x o, w.vars x = some o → w.st.home (Spec.ownerOf o).1.buf ≠ b) → Freed w.st b
  names : ∀ r ρ, w.refs r = some ρ → w.vars r = none
  refs : ∀ r ρ, w.refs r = some ρ → ∃ o, w.vars ρ.owner = some o ∧ RefOk w.st o ρ
  order : ∀ r r' ρ ρ' b i, w.refs r = some ρ → w.refs r' = some ρ' → w.Covers ρ b i → w.Covers ρ' b i → ρ.tag ≤ ρ'.tag → (ρ.excl = true → w.st.up ρ'.tag ρ.tag = true) ∧ (ρ'.excl = true → ρ.excl = true)

theorem inv_start (P : Plat) : Inv P .start := by
  refine ⟨⟨fun _ h => ?_, fun _ h => ?_, fun _ h => ?_, fun _ _ h => ?_, fun _ _ h => ?_, fun _ _ _ h => ?_, fun _ _ _ h => ?_⟩, rfl, fun _ _ h => ?_, fun _ _ _ _ h => ?_, fun _ h => ?_, fun _ _ h => ?_, fun _ _ h => ?_,
    fun _ _ _ _ _ _ h => ?_⟩ <;> cases h

variable {P : Plat} {w : World} {T : Option Nat}

theorem Inv.prot (hI : Inv P w) (u : Nat) : w.st.prot u = false := by unfold State.prot; rw [hI.guard]; rfl

theorem Inv.tag (hI : Inv P w) {x : Nat} {o : Owned} (h : w.vars x = some o) : (Spec.ownerOf o).1.buf < w.st.next := (hI.valid x o h).owns.mutable.1

theorem Inv.exists_ (hI : Inv P w) {x : Nat} {o : Owned} (h : w.vars x = some o) : w.st.home (Spec.ownerOf o).1.buf < w.st.mem.nbuf := hI.sound.alloc _ (hI.tag h)

/-- The variable whose memory a reference covers. -/
theorem Inv.owner (hI : Inv P w) {x r : Nat} {o : Owned} {ρ : Ref} (hx : w.vars x = some o) (hr : w.refs r = some ρ) {i : Nat} (hc : w.Covers ρ (w.st.home (Spec.ownerOf o).1.buf) i) :
    ρ.owner = x ∧ RefOk w.st o ρ := by
  obtain ⟨o', h1, h2⟩ := hI.refs r ρ hr
  obtain rfl := hI.apart x ρ.owner o o' hx h1 (by rw [← h2.home]; exact hc.1)
  rw [hx] at h1; cases h1
  exact ⟨rfl, h2⟩

/-- An access to the byte leaves to the variable that owns it and to the references that cover it what they may do. -/
def Spares (w : World) (b i : Nat) (l : Loan) : Prop :=
  ∀ x o, w.vars x = some o → w.st.home (Spec.ownerOf o).1.buf = b → i < (Spec.ownerOf o).2 →
    Spare w.st l true (Spec.ownerOf o).1.buf ∧ ∀ r ρ, w.refs r = some ρ → w.Covers ρ b i → Spare w.st l ρ.excl ρ.tag

/-- How a byte may be lent: with `&` by its owner or a reference to it while no younger `&mut` covers it; with `&mut` by its owner or a `&mut` to it while no younger reference covers it. -/
def Permits (w : World) (b i : Nat) : Loan → Prop
  | .none => True
  | .shared t => ((∃ x o, w.vars x = some o ∧ t = (Spec.ownerOf o).1.buf ∧ w.st.home t = b) ∨ ∃ r ρ, w.refs r = some ρ ∧ ρ.tag = t ∧ w.Covers ρ b i) ∧ w.NoMut t b i
  | .excl t => ((∃ x o, w.vars x = some o ∧ t = (Spec.ownerOf o).1.buf ∧ w.st.home t = b ∧ ¬ IsText o) ∨ ∃ r ρ, w.refs r = some ρ ∧ ρ.tag = t ∧ w.Covers ρ b i ∧ ρ.excl = true) ∧ w.NoRef t b i

theorem Permits.spares (hI : Inv P w) {b i : Nat} {l : Loan} (h : Permits w b i l) : Spares w b i l := fun x o hx hb hi => by
  cases l with
  | none => exact ⟨trivial, fun _ _ _ _ => trivial⟩
  | shared t =>
    obtain ⟨h | h, hn⟩ := h
    · obtain ⟨y, o', hy, rfl, hy'⟩ := h
      obtain rfl := hI.apart x y o o' hx hy (by rw [hb, hy'])
      rw [hx] at hy; cases hy
      refine ⟨⟨hI.tag hx, .inl (hI.sound.self _ (hI.tag hx))⟩, fun r ρ hr hc => ⟨hI.tag hx, .inr ?_⟩⟩
      obtain ⟨-, hok⟩ := hI.owner hx hr (by rw [hb]; exact hc)
      cases hex : ρ.excl with
      | false => rfl
      | true => have := hn r ρ hr hc hex; have := hok.older; omega
    · obtain ⟨k, ρ', hk, rfl, hc'⟩ := h
      obtain ⟨-, hok'⟩ := hI.owner hx hk (by rw [hb]; exact hc')
      refine ⟨⟨hok'.tag, .inl hok'.up⟩, fun r ρ hr hc => ⟨hok'.tag, ?_⟩⟩
      cases hex : ρ.excl with
      | false => exact .inr rfl
      | true => exact .inl ((hI.order r k ρ ρ' b i hr hk hc hc' (hn r ρ hr hc hex)).1 hex)
  | excl t =>
    obtain ⟨h | h, hn⟩ := h
    · obtain ⟨y, o', hy, rfl, hy', -⟩ := h
      obtain rfl := hI.apart x y o o' hx hy (by rw [hb, hy'])
      rw [hx] at hy; cases hy
      refine ⟨⟨hI.tag hx, hI.sound.self _ (hI.tag hx)⟩, fun r ρ hr hc => ?_⟩
      obtain ⟨-, hok⟩ := hI.owner hx hr (by rw [hb]; exact hc)
      have := hn r ρ hr hc; have := hok.older; omega
    · obtain ⟨k, ρ', hk, rfl, hc', hex'⟩ := h
      obtain ⟨-, hok'⟩ := hI.owner hx hk (by rw [hb]; exact hc')
      refine ⟨⟨hok'.tag, hok'.up⟩, fun r ρ hr hc => ⟨hok'.tag, ?_⟩⟩
      obtain ⟨h1, h2⟩ := hI.order r k ρ ρ' b i hr hk hc hc' (hn r ρ hr hc)
      exact h1 (h2 hex')

/-- Where bytes are lent with `&mut`, no shared reference covers them. -/
theorem Permits.no_shared (hI : Inv P w) {b i t : Nat} (h : Permits w b i (.excl t)) {r : Nat} {ρ : Ref} (hr : w.refs r = some ρ) (hc : w.Covers ρ b i) : ρ.excl = true := by
  obtain ⟨h | h, hn⟩ := h
  · obtain ⟨x, o, hx, rfl, hb, -⟩ := h
    obtain ⟨-, h2⟩ := hI.owner hx hr (by rw [hb]; exact hc)
    have := hn r ρ hr hc
    have := h2.older
    omega
  · obtain ⟨k, ρ', hk, rfl, hc', hx⟩ := h
    exact (hI.order r k ρ ρ' b i hr hk hc hc' (hn r ρ hr hc)).2 hx

/-- What is lent with `&mut` is not text. -/
theorem Permits.no_text (hI : Inv P w) {i t x : Nat} {o : Owned} (hx : w.vars x = some o) (h : Permits w (w.st.home (Spec.ownerOf o).1.buf) i (.excl t)) : ¬ IsText o := fun ht => by
  obtain ⟨h | h, hn⟩ := h
  · obtain ⟨y, o', hy, rfl, hb, h⟩ := h
    obtain rfl := hI.apart x y o o' hx hy hb.symm
    rw [hx] at hy; cases hy
    exact h ht
  · obtain ⟨k, ρ', hk, rfl, hc', hex⟩ := h
    obtain ⟨-, h2⟩ := hI.owner hx hk hc'
    have := h2.text hex ht
    have := hc'.2
    dsimp only at this
    omega

/-- The reference is shared, or younger than the name `T` through which the step writes, if any. -/
def Fixed (T : Option Nat) (ρ : Ref) : Prop := ρ.excl = false ∨ ∀ t, T = some t → t < ρ.tag

/-- The bytes behind such a reference that stays live have not changed. -/
def Frozen (w w' : World) (T : Option Nat) : Prop :=
  ∀ r ρ, w.refs r = some ρ → Fixed T ρ → w'.refs r = some ρ → ∀ xs, xs.length = ρ.len → Reads w.st.mem (place w.st ⟨ρ.tag, ρ.off⟩) xs → Reads w'.st.mem (place w'.st ⟨ρ.tag, ρ.off⟩) xs

/-- Allocation `b` is not that of a variable in `X`. -/
def World.Out (w : World) (X : Nat → Prop) (b : Nat) : Prop := ∀ y o, X y → w.vars y = some o → w.st.home (Spec.ownerOf o).1.buf ≠ b

/-- A step after which the variables in `X` hold something else. -/
theorem Inv.change (hI : Inv P w) {s' : State} {vars : Nat → Option Owned} (X : Nat → Prop) {G : Nat → Nat → Loan} {W : Nat → Nat → Prop} (hA : AfterHeap w.st s' G) (hm : MemAfter w.st.mem s'.mem W)
    (hv : ∀ y, ¬ X y → vars y = w.vars y) (hr : ∀ r ρ, w.refs r = some ρ → ¬ X ρ.owner ∧ vars r = none) (hf : ∀ b, b < w.st.mem.nbuf → w.Out X b → s'.freed b = w.st.freed b)
    (hG : ∀ b i, b < w.st.mem.nbuf → w.Out X b → Spares w b i (G b i)) (hW : ∀ b i, W b i → b < w.st.mem.nbuf → w.Out X b → ∃ t, T = some t ∧ Permits w b i (.excl t))
    (hn : ∀ y o', X y → vars y = some o' → Valid P s' o' ∧ (w.st.mem.nbuf ≤ s'.home (Spec.ownerOf o').1.buf ∨ ¬ w.Out X (s'.home (Spec.ownerOf o').1.buf)))
    (ha : ∀ y z o o', X y → X z → vars y = some o → vars z = some o' → s'.home (Spec.ownerOf o).1.buf = s'.home (Spec.ownerOf o').1.buf → y = z)
    (hnew : ∀ b, b < s'.mem.nbuf → w.st.mem.nbuf ≤ b ∨ ¬ w.Out X b → (∀ y o', X y → vars y = some o' → s'.home (Spec.ownerOf o').1.buf ≠ b) → Freed s' b) :
    Inv P ⟨vars, s', w.refs⟩ ∧ Frozen w ⟨vars, s', w.refs⟩ T := by
  have hguard : s'.guard = [] := (show s'.guard = w.st.guard from hA.guard).trans hI.guard
  have hprot : ∀ u, s'.prot u = false := fun u => by unfold State.prot; rw [hguard]; rfl
  have hh : ∀ t, t < w.st.next → s'.home t = w.st.home t := hA.home
  have hup : ∀ t, t < w.st.next → s'.up t = w.st.up t := hA.up
  have hnx : w.st.next ≤ s'.next := hA.next
  have hbf : w.st.mem.nbuf ≤ s'.mem.nbuf := hA.nbuf
  have home : ∀ x o, w.vars x = some o → s'.home (Spec.ownerOf o).1.buf = w.st.home (Spec.ownerOf o).1.buf := fun x o hx => hh _ (hI.tag hx)
  have out : ∀ x o, ¬ X x → w.vars x = some o → w.Out X (w.st.home (Spec.ownerOf o).1.buf) := fun x o hX hx y o' hXy hy e => by
    have := hI.apart y x o' o hy hx e
    subst this; exact hX hXy
  have rout : ∀ r ρ, w.refs r = some ρ → w.st.home ρ.tag < w.st.mem.nbuf ∧ w.Out X (w.st.home ρ.tag) := fun r ρ h => by
    obtain ⟨o, h1, h2⟩ := hI.refs r ρ h
    rw [h2.home]
    exact ⟨hI.exists_ h1, out _ o (hr r ρ h).1 h1⟩
  have hcov : ∀ r ρ b i, w.refs r = some ρ → World.Covers ⟨vars, s', w.refs⟩ ρ b i → w.Covers ρ b i := fun r ρ b i h hc => by
    obtain ⟨o, h1, h2⟩ := hI.refs r ρ h
    exact ⟨hc.1.trans (hh _ h2.tag), hc.2⟩
  have keep : ∀ {w' t b i}, w.st.Has b t → w.Out X b → Spare w.st (G b i) w' t → Allowed w.st w' t b i → Allowed s' w' t b i := fun {w' t b i} h1 h2 h3 h4 =>
    (AfterCall.keep hA hI.sound hI.guard h1 h3 h4).ofFreed (hf b (by rw [← h1.2]; exact hI.sound.alloc _ h1.1) h2)
  have hvalid : ∀ x o, ¬ X x → w.vars x = some o → Valid P s' o := fun x o hX hx => by
    have hV := hI.valid x o hx
    have hO := hV.owns
    have hb := hI.exists_ hx
    have ho := out x o hX hx
    refine ⟨⟨hO.start, by rw [home x o hx, hm.size _ hb]; exact hO.size, ⟨Nat.lt_of_lt_of_le (hI.tag hx) hnx, fun b i hi => ?_⟩, fun u _ => hprot u⟩, hV.max, ?_⟩
    · have hi' : In (place w.st (Spec.ownerOf o).1) (Spec.ownerOf o).2 b i := ⟨hi.1.trans (home x o hx), hi.2⟩
      have hb' : w.st.home (Spec.ownerOf o).1.buf = b := hi'.1.symm
      have hi2 : i < (Spec.ownerOf o).2 := by have := hi'.2.2; have := hO.start; dsimp only [place] at *; omega
      refine keep ⟨hI.tag hx, hb'⟩ (hb' ▸ ho) ?_ (hO.mutable.2 b i hi')
      exact (hG b i (hb' ▸ hb) (hb' ▸ ho) x o hx hb' hi2).1
    · obtain ⟨ys, h1, h2, h3⟩ := hV.content
      have hp : place s' (Spec.ownerOf o).1 = place w.st (Spec.ownerOf o).1 := by unfold place; rw [home x o hx]
      rw [hp]
      by_cases ht : IsText o
      · refine ⟨ys, h1, Simd.Spec.Reads.kept hm hb h2 fun i _ hw => ?_, h3⟩
        obtain ⟨t, -, hp⟩ := hW _ _ hw hb ho
        exact hp.no_text hI hx ht
      · obtain ⟨zs, h4, h5⟩ := Simd.Spec.Reads.still hm hb h2
        exact ⟨zs, h4.trans h1, h5, fun h => absurd h ht⟩
  have hne : ∀ y z o o', X y → ¬ X z → vars y = some o → w.vars z = some o' → s'.home (Spec.ownerOf o).1.buf ≠ w.st.home (Spec.ownerOf o').1.buf := fun y z o o' hy hz h1 h2 e => by
    rcases (hn y o hy h1).2 with h3 | h3
    · have := hI.exists_ h2; omega
    · rw [e] at h3; exact h3 (out z o' hz h2)
  refine ⟨⟨hA.sound.ofFreed, hguard, fun x o hx => ?_, fun x y o o' hx hy e => ?_, fun b hb hfr => ?_, fun r ρ h => (hr r ρ h).2, fun r ρ h => ?_, fun r r' ρ ρ' b i h h' hc hc' hle => ?_⟩, fun r ρ h hx _ xs hl hrd => ?_⟩
  · by_cases hX : X x
    · exact (hn x o hX hx).1
    · exact hvalid x o hX ((hv x hX).symm.trans hx)
  · dsimp only at hx hy e
    by_cases hX : X x <;> by_cases hY : X y
    · exact ha x y o o' hX hY hx hy e
    · rw [hv y hY] at hy
      rw [home y o' hy] at e
      exact absurd e (hne x y o o' hX hY hx hy)
    · rw [hv x hX] at hx
      rw [home x o hx] at e
      exact absurd e.symm (hne y x o' o hY hX hy hx)
    · rw [hv x hX] at hx
      rw [hv y hY] at hy
      rw [home x o hx, home y o' hy] at e
      exact hI.apart x y o o' hx hy e
  · dsimp only at hb hfr
    by_cases hc : w.st.mem.nbuf ≤ b ∨ ¬ w.Out X b
    · exact hnew b hb hc fun y o' _ hy => hfr y o' hy
    · have hlt : b < w.st.mem.nbuf := Nat.lt_of_not_le fun h => hc (.inl h)
      have ho : w.Out X b := Classical.byContradiction fun h => hc (.inr h)
      have hnv : ∀ x o, w.vars x = some o → w.st.home (Spec.ownerOf o).1.buf ≠ b := fun x o hx e => by
        by_cases hX : X x
        · exact ho x o hX hx e
        · exact hfr x o ((hv x hX).trans hx) ((home x o hx).trans e)
      rcases hI.freed b hlt hnv with h | h
      · exact .inl ((hf b hlt ho).trans h)
      · exact .inr ((hm.size b hlt).trans h)
  · obtain ⟨o, h1, h2⟩ := hI.refs r ρ h
    obtain ⟨hX, -⟩ := hr r ρ h
    have hh1 := hh _ h2.tag
    obtain ⟨hb, ho⟩ := rout r ρ h
    refine ⟨o, (hv _ hX).trans h1, Nat.lt_of_lt_of_le h2.tag hnx, ?_, h2.within, h2.text, fun hi => ?_, fun i hi1 hi2 => ?_, h2.older, ?_⟩
    · show s'.home _ = s'.home _
      rw [hh1, home _ o h1, h2.home]
    · obtain ⟨xs, h3, h4⟩ := h2.content hi
      have hp : place s' ⟨ρ.tag, ρ.off⟩ = place w.st ⟨ρ.tag, ρ.off⟩ := by unfold place; rw [hh1]
      show ∃ xs, xs.length = ρ.len ∧ Reads s'.mem (place s' _) xs
      rw [hp]
      obtain ⟨zs, h5, h6⟩ := Simd.Spec.Reads.still hm hb h4
      exact ⟨zs, h5.trans h3, h6⟩
    · show Allowed s' ρ.excl ρ.tag (s'.home ρ.tag) i
      rw [hh1]
      refine keep ⟨h2.tag, rfl⟩ ho ?_ (h2.allowed i hi1 hi2)
      exact (hG _ i hb ho _ o h1 h2.home.symm (by have := h2.within; omega)).2 r ρ h ⟨rfl, hi1, hi2⟩
    · show s'.up _ _ = true
      rw [hup _ h2.tag]; exact h2.up
  · obtain ⟨o, -, h2⟩ := hI.refs r' ρ' h'
    show (_ → s'.up _ _ = true) ∧ _
    rw [hup _ h2.tag]
    exact hI.order r r' ρ ρ' b i h h' (hcov r ρ b i h hc) (hcov r' ρ' b i h' hc') hle
  · obtain ⟨o, h1, h2⟩ := hI.refs r ρ h
    obtain ⟨hb, ho⟩ := rout r ρ h
    have hp : place s' ⟨ρ.tag, ρ.off⟩ = place w.st ⟨ρ.tag, ρ.off⟩ := by unfold place; rw [hh _ h2.tag]
    show Reads s'.mem (place s' _) xs
    rw [hp]
    refine Simd.Spec.Reads.kept hm hb hrd fun i hi hw => ?_
    obtain ⟨t, ht, hper⟩ := hW _ _ hw hb ho
    have hc : w.Covers ρ (w.st.home ρ.tag) (ρ.off + i) := ⟨rfl, Nat.le_add_right _ _, by show ρ.off + i < ρ.off + ρ.len; omega⟩
    have h3 := hper.no_shared hI h hc
    rcases hx with hx | hx
    · rw [hx] at h3; cases h3
    · have := hper.2 r ρ h hc
      have := hx t ht
      omega

/-- A step that leaves the variables as they are and allocates nothing. -/
theorem Inv.stay (hI : Inv P w) {s' : State} {G : Nat → Nat → Loan} {W : Nat → Nat → Prop} (hA : AfterCall w.st s' G) (hm : MemAfter w.st.mem s'.mem W) (hn : s'.mem.nbuf = w.st.mem.nbuf)
    (hG : ∀ b i, Spares w b i (G b i)) (hW : ∀ b i, W b i → ∃ t, T = some t ∧ Permits w b i (.excl t)) : Inv P ⟨w.vars, s', w.refs⟩ ∧ Frozen w ⟨w.vars, s', w.refs⟩ T := by
  refine hI.change (fun _ => False) hA.heap hm (fun _ _ => rfl) (fun r ρ h => ⟨id, hI.names r ρ h⟩) (fun b hb _ => hA.kept b hb) (fun b i _ _ => hG b i) (fun b i h _ _ => hW b i h) (fun _ _ h => h.elim)
    (fun _ _ _ _ h => h.elim) fun b hb h => ?_
  rcases h with h | h
  · omega
  · exact absurd (fun _ _ h => h.elim) h

end Simd.Tree.Use
