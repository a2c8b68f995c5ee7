import Verif.Spec.Lend
import Verif.Lemmas.ClientSteps
/-
What the steps of a program do to the references it keeps.
-/
namespace Simd.Lend
open Borrow Spec Client

/-- The permission of a reference. -/
def Ref.perm (ρ : Ref) : Perm := if ρ.excl then .unique else .sharedRO

theorem Ref.perm_ne (ρ : Ref) : ρ.perm ≠ .disabled := by unfold Ref.perm; split <;> nofun
theorem Ref.perm_excl {ρ : Ref} (h : ρ.excl = true) : ρ.perm = .unique := if_pos h
theorem Ref.perm_shared {ρ : Ref} (h : ρ.excl = false) : ρ.perm = .sharedRO := by unfold Ref.perm; rw [h]; rfl

/-- A reference to memory that `o` owns. -/
structure RefOk (s : State) (o : Owned) (ρ : Ref) : Prop where
  tag : ρ.tag < s.next
  home : s.home ρ.tag = s.home (Spec.ownerOf o).1.buf
  within : ρ.off + ρ.len ≤ (Spec.ownerOf o).2
  text : ρ.excl = true → IsText o → ρ.len = 0
  content : ρ.init = true → ∃ xs, xs.length = ρ.len ∧ Reads s.mem (place s ⟨ρ.tag, ρ.off⟩) xs
  stack : ∀ i, ρ.off ≤ i → i < ρ.off + ρ.len → Has ρ.perm ρ.tag (Spec.ownerOf o).1.buf (s.stack (s.home ρ.tag) i)
  older : (Spec.ownerOf o).1.buf < ρ.tag

/-- What holds at every step. -/
structure RInv (P : Plat) (w : World) : Prop where
  base : Inv P w.toWorld
  names : ∀ r ρ, w.refs r = some ρ → w.vars r = none
  refs : ∀ r ρ, w.refs r = some ρ → ∃ o, w.vars ρ.owner = some o ∧ RefOk w.st o ρ
  order : ∀ r r' ρ ρ' b i, w.refs r = some ρ → w.refs r' = some ρ' → ρ.excl = true → ρ'.excl = false → w.Covers ρ b i → w.Covers ρ' b i → ρ.tag < ρ'.tag

theorem rinv_start (P : Plat) : RInv P .start := by
  refine ⟨inv_start P, fun _ _ h => ?_, fun _ _ h => ?_, fun _ _ _ _ _ _ h => ?_⟩ <;> cases h

variable {P : Plat} {w : World} {T : Option Nat}

/-- The variable whose memory a reference covers. -/
theorem RInv.owner (hI : RInv P w) {x r : Nat} {o : Owned} {ρ : Ref} (hx : w.vars x = some o) (hr : w.refs r = some ρ) {i : Nat} (hc : w.Covers ρ (w.st.home (Spec.ownerOf o).1.buf) i) :
    ρ.owner = x ∧ RefOk w.st o ρ := by
  obtain ⟨o', h1, h2⟩ := hI.refs r ρ hr
  obtain rfl := hI.base.apart x ρ.owner o o' hx h1 (by rw [← h2.home]; exact hc.1)
  rw [hx] at h1; cases h1
  exact ⟨rfl, h2⟩

/-- What the stack `st` of byte `i` of allocation `b` must have for the variable that owns it and the references that cover it. -/
def Facts (w : World) (b i : Nat) (st : Stack) : Prop :=
  ∀ x o, w.vars x = some o → w.st.home (Spec.ownerOf o).1.buf = b → i < (Spec.ownerOf o).2 →
    Free st ∧ (Stack.write (Spec.ownerOf o).1.buf st).isSome ∧ ∀ r ρ, w.refs r = some ρ → w.Covers ρ b i → Has ρ.perm ρ.tag (Spec.ownerOf o).1.buf st

theorem RInv.facts (hI : RInv P w) (b i : Nat) : Facts w b i (w.st.stack b i) := fun x o hx hb hi => by
  have hO := (hI.base.valid x o hx).owns
  subst hb
  refine ⟨hO.unprotected i hi, ?_, fun r ρ hr hc => ?_⟩
  · exact hO.mutable _ i ⟨rfl, by have := hO.start; simp only [place]; omega, by have := hO.start; simp only [place]; omega⟩
  · obtain ⟨-, h⟩ := hI.owner hx hr hc
    have := h.stack i hc.2.1 hc.2.2
    rwa [h.home] at this

theorem Facts.above {b i : Nat} {st new : Stack} (hI : RInv P w) (h : Facts w b i st) (hn : ∀ it ∈ new, w.st.next ≤ it.tag ∧ it.prot = none) : Facts w b i (new ++ st) := fun x o hx hb hi => by
  obtain ⟨h1, h2, h3⟩ := h x o hx hb hi
  refine ⟨Free.append (fun it hit => (hn it hit).2) h1, Stack.write_above (fun it hit => (hn it hit).2) h2, fun r ρ hr hc => (h3 r ρ hr hc).above fun it hit => ?_⟩
  obtain ⟨o', -, h4⟩ := hI.refs r ρ hr
  have := h4.tag
  have := (hn it hit).1
  omega

/-- How a byte may be lent: with `&` by its owner or a reference to it while no younger `&mut` covers it; with `&mut` by its owner or a `&mut` to it while no younger reference covers it. -/
def Permits (w : World) (b i : Nat) : Loan → Prop
  | .none => True
  | .shared t => ((∃ x o, w.vars x = some o ∧ t = (Spec.ownerOf o).1.buf ∧ w.st.home t = b) ∨ ∃ r ρ, w.refs r = some ρ ∧ ρ.tag = t ∧ w.Covers ρ b i) ∧ w.NoMut t b i
  | .excl t => ((∃ x o, w.vars x = some o ∧ t = (Spec.ownerOf o).1.buf ∧ w.st.home t = b ∧ ¬ IsText o) ∨ ∃ r ρ, w.refs r = some ρ ∧ ρ.tag = t ∧ w.Covers ρ b i ∧ ρ.excl = true) ∧ w.NoRef t b i
  | .own => False

theorem Permits.read (hI : RInv P w) {b i t : Nat} (h : Permits w b i (.shared t)) {r : Stack} (e : (w.st.stack b i).read t = some r) : Facts w b i r := fun x o hx hb hi => by
  obtain ⟨hf, hw, hh⟩ := hI.facts b i x o hx hb hi
  obtain ⟨h | h, hn⟩ := h
  · obtain ⟨y, o', hy, rfl, hy'⟩ := h
    obtain rfl := hI.base.apart x y o o' hx hy (by rw [hb, hy'])
    rw [hx] at hy; cases hy
    have hfree : Free r := fun it hit => by
      obtain ⟨it', h1, -, h2⟩ := Stack.read_mem e it hit
      rw [← h2]; exact hf it' h1
    refine ⟨hfree, Stack.write_of_read hw e, fun k ρ hk hc => ?_⟩
    obtain ⟨-, hok⟩ := hI.owner hx hk (by rw [hb]; exact hc)
    have hsh : ρ.excl = false := by
      cases hx : ρ.excl with
      | false => rfl
      | true => have := hn k ρ hk hc hx; have := hok.older; omega
    have := hh k ρ hk hc
    rw [Ref.perm_shared hsh] at this ⊢
    exact this.after_owner hok.older hf e
  · obtain ⟨k, ρ, hk, rfl, hc⟩ := h
    obtain ⟨h1, h2, h3⟩ := (hh k ρ hk hc).after_read ρ.perm_ne hf e
    refine ⟨h1, h2, fun k' ρ' hk' hc' => h3 _ _ ?_ (hh k' ρ' hk' hc')⟩
    cases hx : ρ'.excl with
    | false => exact .inr (Ref.perm_shared hx)
    | true => exact .inl (hn k' ρ' hk' hc' hx)

theorem Permits.write (hI : RInv P w) {b i t : Nat} (h : Permits w b i (.excl t)) {r : Stack} (e : (w.st.stack b i).write t = some r) : Facts w b i r := fun x o hx hb hi => by
  obtain ⟨hf, hw, hh⟩ := hI.facts b i x o hx hb hi
  obtain ⟨h | h, hn⟩ := h
  · obtain ⟨y, o', hy, rfl, hy', -⟩ := h
    obtain rfl := hI.base.apart x y o o' hx hy (by rw [hb, hy'])
    rw [hx] at hy; cases hy
    have hfree : Free r := fun it hit => by
      obtain ⟨new, h1⟩ := Stack.write_suffix e
      exact hf it (by rw [h1]; exact List.mem_append_right _ hit)
    refine ⟨hfree, by rw [Stack.write_idem e]; rfl, fun k ρ hk hc => ?_⟩
    obtain ⟨-, hok⟩ := hI.owner hx hk (by rw [hb]; exact hc)
    have := hn k ρ hk hc
    have := hok.older
    omega
  · obtain ⟨k, ρ, hk, rfl, hc, hex⟩ := h
    have := hh k ρ hk hc
    rw [Ref.perm_excl hex] at this
    obtain ⟨h1, h2, h3⟩ := this.after_write hf e
    exact ⟨h1, h2, fun k' ρ' hk' hc' => h3 _ _ (hn k' ρ' hk' hc') (hh k' ρ' hk' hc')⟩

theorem Permits.facts (hI : RInv P w) {s' : State} {G : Nat → Nat → Loan} (hA : AfterCall w.st s' G) {b i : Nat} (h : Permits w b i (G b i)) : Facts w b i (s'.stack b i) := by
  rcases hA.stack b i with e | e
  · rw [e]; exact hI.facts b i
  · split at e
    · exact e.elim
    · rename_i hg
      rw [hg] at h
      obtain ⟨r, new, e1, e2, e3⟩ := e
      rw [e2]
      exact Facts.above hI (h.read hI e1) fun it hit => ⟨(e3 it hit).1.1, (e3 it hit).1.2.2⟩
    · rename_i hg
      rw [hg] at h
      obtain ⟨r, new, e1, e2, e3⟩ := e
      rw [e2]
      exact Facts.above hI (h.write hI e1) fun it hit => ⟨(e3 it hit).1, (e3 it hit).2.2⟩
    · rename_i hg
      rw [hg] at h
      exact h.elim

/-- The reference is shared, or younger than the name `T` through which the step writes, if any. -/
def Fixed (T : Option Nat) (ρ : Ref) : Prop := ρ.excl = false ∨ ∀ t, T = some t → t < ρ.tag

/-- The bytes behind such a reference that stays live have not changed. -/
def Frozen (w w' : World) (T : Option Nat) : Prop :=
  ∀ r ρ, w.refs r = some ρ → Fixed T ρ → w'.refs r = some ρ → ∀ xs, xs.length = ρ.len → Reads w.st.mem (place w.st ⟨ρ.tag, ρ.off⟩) xs → Reads w'.st.mem (place w'.st ⟨ρ.tag, ρ.off⟩) xs

theorem Frozen.of (hI : RInv P w) {s' : State} {W : Nat → Nat → Prop} (hm : MemAfter w.st.mem s'.mem W) (hh : ∀ t, t < w.st.next → s'.home t = w.st.home t)
    (hW : ∀ r ρ b i, w.refs r = some ρ → Fixed T ρ → w.Covers ρ b i → ¬ W b i) {vars : Nat → Option Owned} {refs : Nat → Option Ref} : Frozen w ⟨⟨vars, s'⟩, refs⟩ T := fun r ρ hr hx _ xs hl hrd => by
  obtain ⟨o, h1, h2⟩ := hI.refs r ρ hr
  have hO := (hI.base.valid _ o h1).owns
  have hp : place s' ⟨ρ.tag, ρ.off⟩ = place w.st ⟨ρ.tag, ρ.off⟩ := by unfold place; rw [hh _ h2.tag]
  show Reads s'.mem (place s' _) xs
  rw [hp]
  refine hrd.kept hm (by show w.st.home ρ.tag < _; rw [h2.home]; exact hO.exists_) fun i hi => hW r ρ _ _ hr hx ⟨rfl, ?_, ?_⟩
  · exact Nat.le_add_right _ _
  · show ρ.off + i < ρ.off + ρ.len; omega

/-- The references after a step that leaves their owners as they are. -/
theorem RInv.other (hI : RInv P w) {w' : Client.World} (hI' : Inv P w') (hv : ∀ r ρ, w.refs r = some ρ → w'.vars ρ.owner = w.vars ρ.owner ∧ w'.vars r = none) {G : Nat → Nat → Loan}
    (hA : AfterCall w.st w'.st G) {W : Nat → Nat → Prop} (hm : MemAfter w.st.mem w'.st.mem W) (hF : ∀ r ρ b i, w.refs r = some ρ → w.Covers ρ b i → Facts w b i (w'.st.stack b i))
    (hW : ∀ r ρ b i, w.refs r = some ρ → Fixed T ρ → w.Covers ρ b i → ¬ W b i) : RInv P ⟨w', w.refs⟩ ∧ Frozen w ⟨w', w.refs⟩ T := by
  have hcov : ∀ r ρ b i, w.refs r = some ρ → World.Covers ⟨w', w.refs⟩ ρ b i → w.Covers ρ b i := fun r ρ b i hr hc => by
    obtain ⟨o, h1, h2⟩ := hI.refs r ρ hr
    have := hA.home _ h2.tag
    exact ⟨hc.1.trans this, hc.2⟩
  refine ⟨⟨hI', fun r ρ hr => (hv r ρ hr).2, fun r ρ hr => ?_, fun r r' ρ ρ' b i hr hr' hx hx' hc hc' => hI.order r r' ρ ρ' b i hr hr' hx hx' (hcov _ _ _ _ hr hc) (hcov _ _ _ _ hr' hc')⟩,
    Frozen.of hI hm hA.home hW⟩
  obtain ⟨o, h1, h2⟩ := hI.refs r ρ hr
  have hO := (hI.base.valid _ o h1).owns
  have hh := hA.home _ h2.tag
  have hh' := hA.home _ hO.tag
  refine ⟨o, (hv r ρ hr).1.trans h1, Nat.lt_of_lt_of_le h2.tag hA.next, by rw [hh, hh', h2.home], h2.within, h2.text, fun hi => ?_, fun i hi1 hi2 => ?_, h2.older⟩
  · obtain ⟨xs, h3, h4⟩ := h2.content hi
    have hp : place w'.st ⟨ρ.tag, ρ.off⟩ = place w.st ⟨ρ.tag, ρ.off⟩ := by unfold place; rw [hh]
    rw [hp]
    obtain ⟨zs, h5, h6⟩ := Reads.still hm (by show w.st.home ρ.tag < _; rw [h2.home]; exact hO.exists_) h4
    exact ⟨zs, h5.trans h3, h6⟩
  · rw [hh]
    have hc : w.Covers ρ (w.st.home ρ.tag) i := ⟨rfl, hi1, hi2⟩
    exact (hF r ρ _ i hr hc _ o h1 h2.home.symm (by have := h2.within; omega)).2.2 r ρ hr hc

/-- A step that leaves the variables as they are and allocates nothing. -/
theorem RInv.stay (hI : RInv P w) {s' : State} {G : Nat → Nat → Loan} (hA : AfterCall w.st s' G) {W : Nat → Nat → Prop} (hm : MemAfter w.st.mem s'.mem W) (hn : s'.mem.nbuf = w.st.mem.nbuf)
    (hO : ∀ b i, G b i ≠ .own) (hF : ∀ b i, Facts w b i (s'.stack b i)) (hT : ∀ x o, w.vars x = some o → IsText o → ∀ i, ¬ W (w.st.home (Spec.ownerOf o).1.buf) i)
    (hW : ∀ r ρ b i, w.refs r = some ρ → Fixed T ρ → w.Covers ρ b i → ¬ W b i) : RInv P ⟨⟨w.vars, s'⟩, w.refs⟩ ∧ Frozen w ⟨⟨w.vars, s'⟩, w.refs⟩ T := by
  have h := (hI.base.same' (X := fun _ => True) hA hm hn (fun x o hx i hi => ?_) hO fun x o hx ht => hT x o hx (ht.resolve_left fun h => h trivial)).1
  · exact hI.other h (fun r ρ hr => ⟨rfl, hI.names r ρ hr⟩) hA hm (fun r ρ b i _ _ => hF b i) hW
  · obtain ⟨h1, h2, -⟩ := hF _ i x o hx rfl hi
    exact ⟨h2, h1⟩

/-- Where bytes are lent with `&mut`, no shared reference covers them. -/
theorem Permits.no_shared (hI : RInv P w) {b i t : Nat} (h : Permits w b i (.excl t)) {r : Nat} {ρ : Ref} (hr : w.refs r = some ρ) (hc : w.Covers ρ b i) : ρ.excl = true := by
  obtain ⟨h | h, hn⟩ := h
  · obtain ⟨x, o, hx, rfl, hb, -⟩ := h
    obtain ⟨-, h2⟩ := hI.owner hx hr (by rw [hb]; exact hc)
    have := hn r ρ hr hc
    have := h2.older
    omega
  · obtain ⟨k, ρ', hk, rfl, hc', hx⟩ := h
    cases hx' : ρ.excl with
    | true => rfl
    | false => have := hI.order k r ρ' ρ b i hk hr hx hx' hc' hc; have := hn r ρ hr hc; omega

/-- What is lent with `&mut` is not text. -/
theorem Permits.no_text (hI : RInv P w) {i t x : Nat} {o : Owned} (hx : w.vars x = some o) (h : Permits w (w.st.home (Spec.ownerOf o).1.buf) i (.excl t)) : ¬ IsText o := fun ht => by
  obtain ⟨h | h, hn⟩ := h
  · obtain ⟨y, o', hy, rfl, hb, h⟩ := h
    obtain rfl := hI.base.apart x y o o' hx hy hb.symm
    rw [hx] at hy; cases hy
    exact h ht
  · obtain ⟨k, ρ', hk, rfl, hc', hex⟩ := h
    obtain ⟨-, h2⟩ := hI.owner hx hk hc'
    have := h2.text hex ht
    have := hc'.2
    dsimp only at this
    omega

/-- A step that uses memory as the borrow checker permits. -/
theorem RInv.permitted (hI : RInv P w) {s' : State} {G : Nat → Nat → Loan} (hA : AfterCall w.st s' G) {W : Nat → Nat → Prop} (hm : MemAfter w.st.mem s'.mem W) (hn : s'.mem.nbuf = w.st.mem.nbuf)
    (hG : ∀ b i, Permits w b i (G b i)) (hW : ∀ b i, W b i → ∃ t, T = some t ∧ Permits w b i (.excl t)) : RInv P ⟨⟨w.vars, s'⟩, w.refs⟩ ∧ Frozen w ⟨⟨w.vars, s'⟩, w.refs⟩ T := by
  refine hI.stay hA hm hn (fun b i e => ?_) (fun b i => (hG b i).facts hI hA) (fun x o hx ht i h => ?_) fun r ρ b i hr hx hc h => ?_
  · have := hG b i
    rw [e] at this
    exact this
  · obtain ⟨t, -, h⟩ := hW _ _ h
    exact h.no_text hI hx ht
  · obtain ⟨t, ht, h⟩ := hW _ _ h
    have h1 := h.no_shared hI hr hc
    rcases hx with hx | hx
    · rw [hx] at h1; cases h1
    · have := h.2 r ρ hr hc
      have := hx t ht
      omega

/-- A further reference. -/
theorem RInv.add (hI : RInv P w) {k : Nat} (hk : w.Unused k) {ρ : Ref} {o : Owned} (ho : w.vars ρ.owner = some o) (hok : RefOk w.st o ρ)
    (hnew : ∀ r ρ', w.refs r = some ρ' → ρ'.tag < ρ.tag) (hex : ρ.excl = true → ∀ r ρ' b i, w.refs r = some ρ' → w.Covers ρ b i → w.Covers ρ' b i → ρ'.excl = true) :
    RInv P ⟨w.toWorld, w.setRef k (some ρ)⟩ := by
  have hset : ∀ r ρ', w.setRef k (some ρ) r = some ρ' → (r = k ∧ ρ' = ρ) ∨ (r ≠ k ∧ w.refs r = some ρ') := fun r ρ' h => by
    unfold World.setRef at h
    split at h
    · exact .inl ⟨by assumption, (Option.some.inj h).symm⟩
    · exact .inr ⟨by assumption, h⟩
  refine ⟨hI.base, fun r ρ' hr => ?_, fun r ρ' hr => ?_, fun r r' ρ1 ρ2 b i hr hr' hx hx' hc hc' => ?_⟩
  · rcases hset r ρ' hr with ⟨rfl, -⟩ | ⟨-, hr⟩
    · exact hk.1
    · exact hI.names r ρ' hr
  · rcases hset r ρ' hr with ⟨-, rfl⟩ | ⟨-, hr⟩
    · exact ⟨o, ho, hok⟩
    · exact hI.refs r ρ' hr
  · rcases hset r ρ1 hr with ⟨-, rfl⟩ | ⟨-, hr1⟩ <;> rcases hset r' ρ2 hr' with ⟨-, rfl⟩ | ⟨-, hr2⟩
    · rw [hx] at hx'; cases hx'
    · have := hex hx r' ρ2 b i hr2 hc hc'
      rw [hx'] at this; cases this
    · exact hnew r ρ1 hr1
    · exact hI.order r r' ρ1 ρ2 b i hr1 hr2 hx hx' hc hc'

end Simd.Lend
