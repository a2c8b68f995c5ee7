import Verif.Lemmas.Lend
import Verif.Props.CallMeans
import Verif.Props.BorrowPar
/-
Every step that safe Rust allows keeps the references of a program valid.
-/
namespace Simd.Lend
open Borrow Spec Client

variable {M : Machine} {P : Plat} {w : World} {T : Option Nat}

/-- What is to be shown of a step. -/
def Fine (P : Plat) (w : World) (T : Option Nat) : End → Prop
  | .ok w' => RInv P w' ∧ Frozen w w' T
  | .panic => True
  | .ub => False

/-! ### Names -/

theorem RInv.var_name (hI : RInv P w) {x : Nat} {o : Owned} (h : w.vars x = some o) : w.name x = (Spec.ownerOf o).1.buf ∧ w.ownerOf x = x ∧ w.refs x = none := by
  have hn : w.refs x = none := by
    cases e : w.refs x with
    | none => rfl
    | some ρ => rw [hI.names x ρ e] at h; cases h
  refine ⟨?_, ?_, hn⟩
  · unfold World.name; rw [hn]; exact tag_eq h
  · unfold World.ownerOf; rw [hn]

theorem ref_name {k : Nat} {ρ : Ref} (h : w.refs k = some ρ) : w.name k = ρ.tag ∧ w.ownerOf k = ρ.owner := by
  unfold World.name World.ownerOf; rw [h]; exact ⟨rfl, rfl⟩

/-- The bytes that a name gives access to. -/
def World.Within (w : World) (p : Ptr) (n : Nat) : Prop :=
  (∃ o, w.vars p.buf = some o ∧ p.off + n ≤ (Spec.ownerOf o).2) ∨ ∃ ρ, w.refs p.buf = some ρ ∧ ρ.off ≤ p.off ∧ p.off + n ≤ ρ.off + ρ.len

theorem Inits.within (hI : RInv P w) {p : Ptr} {n : Nat} (h : w.Inits p n) : w.Within p n := by
  rcases h with ⟨o, h1, h2⟩ | ⟨ρ, h1, h2, h3, -⟩
  · have := len_le hI.base h1
    exact .inl ⟨o, h1, by omega⟩
  · exact .inr ⟨ρ, h1, h2, h3⟩

theorem CanWrite.within {p : Ptr} {n : Nat} (h : w.CanWrite p n) : w.Within p n := by
  rcases h.1 with ⟨o, h1, h2, -⟩ | ⟨ρ, h1, h2, h3, -⟩
  · exact .inl ⟨o, h1, h2⟩
  · exact .inr ⟨ρ, h1, h2, h3⟩

/-- The variable behind a name. -/
theorem Within.owner (hI : RInv P w) {p : Ptr} {n : Nat} (h : w.Within p n) :
    ∃ o, w.vars (w.ownerOf p.buf) = some o ∧ w.name p.buf < w.st.next ∧ w.st.home (w.name p.buf) = w.st.home (Spec.ownerOf o).1.buf ∧ p.off + n ≤ (Spec.ownerOf o).2 ∧
      Owns w.st (Spec.ownerOf o).1 (Spec.ownerOf o).2 ∧ (Spec.ownerOf o).2 ≤ P.isizeMax ∧ (Spec.ownerOf o).1.buf ≤ w.name p.buf := by
  rcases h with ⟨o, h1, h2⟩ | ⟨ρ, h1, h2, h3⟩
  · obtain ⟨e1, e2, -⟩ := hI.var_name h1
    have hV := hI.base.valid _ o h1
    exact ⟨o, by rw [e2]; exact h1, by rw [e1]; exact hV.owns.tag, by rw [e1], h2, hV.owns, hV.max, by rw [e1]⟩
  · obtain ⟨e1, e2⟩ := ref_name h1
    obtain ⟨o, h4, h5⟩ := hI.refs _ ρ h1
    have hV := hI.base.valid _ o h4
    have := h5.within
    exact ⟨o, by rw [e2]; exact h4, by rw [e1]; exact h5.tag, by rw [e1]; exact h5.home, by omega, hV.owns, hV.max, by rw [e1]; exact Nat.le_of_lt h5.older⟩

theorem Inits.reads (hI : RInv P w) {p : Ptr} {n : Nat} (h : w.Inits p n) : ∃ xs, xs.length = n ∧ Reads w.st.mem (place w.st ⟨w.name p.buf, p.off⟩) xs := by
  obtain ⟨o', g1, g2, g3, g4, g5, g6, -⟩ := Within.owner hI (Inits.within hI h)
  rcases h with ⟨o, h1, h2⟩ | ⟨ρ, h1, h2, h3, h4⟩
  · obtain ⟨xs, h3, h4⟩ := holds_reads hI.base (p := p) (n := n) ⟨o, h1, h2⟩
    have e : w.name p.buf = w.tag p.buf := (hI.var_name h1).1.trans (tag_eq h1).symm
    rw [e]
    exact ⟨xs, h3, h4⟩
  · rcases Nat.eq_zero_or_pos n with rfl | hn
    · refine ⟨[], rfl, ?_, fun i hi => absurd hi (Nat.not_lt_zero _)⟩
      show p.off + 0 ≤ w.st.mem.size (w.st.home _)
      rw [g3, g5.size]; exact g4
    · obtain ⟨o, -, h6⟩ := hI.refs _ ρ h1
      obtain ⟨ys, h7, h8⟩ := h6.content (h4 hn)
      obtain ⟨xs, h9, h10⟩ := h8.part (k := p.off - ρ.off) (n := n) (by omega)
      refine ⟨xs, h9, ?_⟩
      have e : (⟨(place w.st ⟨ρ.tag, ρ.off⟩).buf, (place w.st ⟨ρ.tag, ρ.off⟩).off + (p.off - ρ.off)⟩ : Ptr) = place w.st ⟨w.name p.buf, p.off⟩ := by
        rw [(ref_name h1).1]
        show (⟨w.st.home ρ.tag, ρ.off + (p.off - ρ.off)⟩ : Ptr) = ⟨_, _⟩
        rw [show ρ.off + (p.off - ρ.off) = p.off by omega]
      rwa [e] at h10

/-- The byte is one that the name's owner has. -/
theorem Within.inside (hI : RInv P w) {p : Ptr} {n b i : Nat} (h : w.Within p n) (hi : In (place w.st ⟨w.name p.buf, p.off⟩) n b i) :
    (∃ o, w.vars p.buf = some o ∧ w.name p.buf = (Spec.ownerOf o).1.buf ∧ w.st.home (w.name p.buf) = b ∧ i < (Spec.ownerOf o).2) ∨ ∃ ρ, w.refs p.buf = some ρ ∧ ρ.tag = w.name p.buf ∧ w.Covers ρ b i := by
  obtain ⟨h1, h2, h3⟩ := hi
  dsimp only [place] at h1 h2 h3
  rcases h with ⟨o, h4, h5⟩ | ⟨ρ, h4, h5, h6⟩
  · exact .inl ⟨o, h4, (hI.var_name h4).1, h1.symm, by omega⟩
  · exact .inr ⟨ρ, h4, (ref_name h4).1.symm, by rw [h1, (ref_name h4).1], by dsimp only; omega, by dsimp only; omega⟩

theorem CanRead.permits (hI : RInv P w) {p : Ptr} {n : Nat} (h : w.CanRead p n) {b i : Nat} (hi : In (place w.st ⟨w.name p.buf, p.off⟩) n b i) : Permits w b i (.shared (w.name p.buf)) := by
  refine ⟨?_, h.2 b i hi⟩
  rcases Within.inside hI (Inits.within hI h.1) hi with ⟨o, h1, h2, h3, -⟩ | ⟨ρ, h1, h2, h3⟩
  · exact .inl ⟨_, o, h1, h2, h3⟩
  · exact .inr ⟨_, ρ, h1, h2, h3⟩

theorem CanWrite.permits (hI : RInv P w) {p : Ptr} {n : Nat} (h : w.CanWrite p n) {b i : Nat} (hi : In (place w.st ⟨w.name p.buf, p.off⟩) n b i) : Permits w b i (.excl (w.name p.buf)) := by
  refine ⟨?_, h.2 b i hi⟩
  obtain ⟨h1, h2, h3⟩ := hi
  dsimp only [place] at h1 h2 h3
  rcases h.1 with ⟨o, h4, h5, h6⟩ | ⟨ρ, h4, h5, h6, h7⟩
  · exact .inl ⟨_, o, h4, (hI.var_name h4).1, h1.symm, h6 (by omega)⟩
  · exact .inr ⟨_, ρ, h4, (ref_name h4).1.symm, ⟨by rw [h1, (ref_name h4).1], by dsimp only; omega, by dsimp only; omega⟩, h7 (by omega)⟩

theorem CanRead.source (hI : RInv P w) {p : Ptr} {n : Nat} (h : w.CanRead p n) : Source P w.st ⟨w.name p.buf, p.off⟩ n := by
  obtain ⟨o, h1, h2, h3, h4, h5, h6, -⟩ := Within.owner hI (Inits.within hI h.1)
  refine ⟨h2, by rw [h3]; exact h5.exists_, fun b i hi => ?_, Inits.reads hI h.1, by omega⟩
  have hb : w.st.home (Spec.ownerOf o).1.buf = b := by rw [← h3]; exact hi.1.symm
  obtain ⟨hf, hw, hh⟩ := hI.facts b i _ o h1 hb (by have := hi.2.2; dsimp only [place] at this; omega)
  rcases Within.inside hI (Inits.within hI h.1) hi with ⟨o', h7, h8, -⟩ | ⟨ρ, h7, h8, h9⟩
  · rw [(hI.var_name h7).2.1, h7] at h1; cases h1
    dsimp only; rw [h8]; exact Stack.read_of_write hw
  · dsimp only; rw [← h8]; exact (hh _ ρ h7 h9).read ρ.perm_ne hf

theorem CanWrite.mutable (hI : RInv P w) {p : Ptr} {n : Nat} (h : w.CanWrite p n) : Mutable w.st ⟨w.name p.buf, p.off⟩ n := fun b i hi => by
  obtain ⟨o, h1, h2, h3, h4, h5, h6, -⟩ := Within.owner hI (CanWrite.within h)
  have hb : w.st.home (Spec.ownerOf o).1.buf = b := by rw [← h3]; exact hi.1.symm
  obtain ⟨hf, hw, hh⟩ := hI.facts b i _ o h1 hb (by have := hi.2.2; dsimp only [place] at this; omega)
  obtain ⟨g | g, -⟩ := CanWrite.permits hI h hi
  · obtain ⟨y, o', g1, g2, g3, -⟩ := g
    have e := hI.base.apart _ _ _ _ h1 g1 (by rw [hb, ← g2, g3])
    rw [← e, h1] at g1; cases g1
    dsimp only; rw [g2]; exact hw
  · obtain ⟨k, ρ, g1, g2, g3, g4⟩ := g
    have := hh k ρ g1 g3
    rw [Ref.perm_excl g4] at this
    dsimp only; rw [← g2]; exact this.write hf

/-- What can be written is not text. -/
theorem CanWrite.not_text (hI : RInv P w) {p : Ptr} {n : Nat} (h : w.CanWrite p n) {o : Owned} (ho : w.vars (w.ownerOf p.buf) = some o) (ht : IsText o) : n = 0 := by
  rcases Nat.eq_zero_or_pos n with h0 | hn
  · exact h0
  · exfalso
    have hin : In (place w.st ⟨w.name p.buf, p.off⟩) n (w.st.home (w.name p.buf)) p.off := ⟨rfl, Nat.le_refl _, by show p.off < p.off + n; omega⟩
    obtain ⟨o', h1, -, h3, -⟩ := Within.owner hI (CanWrite.within h)
    rw [ho] at h1; cases h1
    have hp := CanWrite.permits hI h hin
    rw [h3] at hp
    exact hp.no_text hI ho ht

/-! ### Reading and writing -/

theorem over_permits {p : Ptr} {n : Nat} {l : Loan} (h : ∀ b i, In p n b i → Permits w b i l) (b i : Nat) : Permits w b i (over p n l (fun _ _ => .none) b i) := by
  by_cases hi : In p n b i
  · rw [over_in hi]; exact h b i hi
  · rw [over_out hi]; trivial

theorem read_fine (hI : RInv P w) {p : Ptr} {n : Nat} (h : w.CanRead p n) : Fine P w T (w.after (prog (loadBytes ⟨w.name p.buf, p.off⟩ n) w.st)) := by
  have hs := CanRead.source hI h
  obtain ⟨xs, hl, hx⟩ := hs.content
  have hr : (loadBytes (place w.st ⟨w.name p.buf, p.off⟩) n).run w.st.mem ≠ .ub := by
    subst hl
    show (Prog.load _ _ _).run _ ≠ _
    rw [prog_run_load, hx.has.read]; nofun
  have g := load_sim (E := fun _ => False) hs.readable hr
  unfold Sim at g
  split at g
  · rename_i bs s' bs' m e _
    rw [e]
    obtain ⟨-, -, -, S, rfl, h3, h4⟩ := g
    have hA : AfterCall w.st { w.st with stack := S } (over (place w.st ⟨w.name p.buf, p.off⟩) n (.shared (w.name p.buf)) fun _ _ => .none) := by
      refine ⟨Nat.le_refl _, rfl, fun _ _ => rfl, fun b i => ?_⟩
      by_cases hi : In (place w.st ⟨w.name p.buf, p.off⟩) n b i
      · refine .inr ?_
        rw [over_in hi]
        exact ⟨S b i, [], h3 b i hi, rfl, nofun⟩
      · exact .inl (h4 b i hi)
    exact hI.permitted (W := fun _ _ => False) hA (.refl _ _) rfl (over_permits fun b i hi => CanRead.permits hI h hi) fun _ _ h => h.elim
  · exact g.2.elim
  · rename_i e _; rw [e]; trivial
  · exact g.elim

theorem write_fine (hI : RInv P w) {p : Ptr} {bs : List Byte} (h : w.CanWrite p bs.length) : Fine P w (some (w.name p.buf)) (w.after (prog (storeBytes ⟨w.name p.buf, p.off⟩ bs) w.st)) := by
  obtain ⟨o, h1, h2, h3, h4, h5, h6, -⟩ := Within.owner hI (CanWrite.within h)
  have g := store_sim (E := fun _ => False) (CanWrite.mutable hI h) (by dsimp only; rw [h3, h5.size]; omega)
  unfold Sim at g
  split at g
  · rename_i _ s' _ m e _
    rw [e]
    obtain ⟨-, S, rfl, h3, h4⟩ := g
    have hA : AfterCall w.st { w.st with stack := S, mem := w.st.mem.write (place w.st ⟨w.name p.buf, p.off⟩) bs } (over (place w.st ⟨w.name p.buf, p.off⟩) bs.length (.excl (w.name p.buf)) fun _ _ => .none) := by
      refine ⟨Nat.le_refl _, rfl, fun _ _ => rfl, fun b i => ?_⟩
      by_cases hi : In (place w.st ⟨w.name p.buf, p.off⟩) bs.length b i
      · refine .inr ?_
        rw [over_in hi]
        exact ⟨S b i, [], h3 b i hi, rfl, nofun⟩
      · exact .inl (h4 b i hi)
    exact hI.permitted hA (.write w.st.mem (place w.st ⟨w.name p.buf, p.off⟩) bs) rfl (over_permits fun b i hi => CanWrite.permits hI h hi) fun b i hi => ⟨_, rfl, CanWrite.permits hI h hi⟩
  · exact g.2.elim
  · rename_i e _; rw [e]; trivial
  · exact g.elim

/-! ### New references -/

/-- A reference with a new tag on top. -/
theorem push_fine (hI : RInv P w) {k : Nat} (hk : w.Unused k) {x : Nat} {o : Owned} (ho : w.vars x = some o) {excl init : Bool} {p : Ptr} {n : Nat} 
    (hh : w.st.home p.buf = w.st.home (Spec.ownerOf o).1.buf) (hn : p.off + n ≤ (Spec.ownerOf o).2) (ht : excl = true → IsText o → n = 0)
    (hc : init = true → ∃ xs, xs.length = n ∧ Reads w.st.mem (place w.st p) xs)
    (hs : ∀ b i, In (place w.st p) n b i → ((if excl then Kind.mut else Kind.shared).apply p.buf w.st.next none (w.st.stack b i)).isSome)
    (hw : excl = true → ∀ b i, In (place w.st p) n b i → ∀ rest, (w.st.stack b i).write p.buf = some rest → Facts w b i rest)
    (hr : excl = false → ∀ b i, In (place w.st p) n b i → ∀ rest, (w.st.stack b i).read p.buf = some rest → Facts w b i rest)
    (hx : excl = true → ∀ r ρ b i, w.refs r = some ρ → In (place w.st p) n b i → w.Covers ρ b i → ρ.excl = true) :
    Fine P w T (w.make k excl init x p n) := by
  obtain ⟨s', e, hm, hR⟩ := retag_ok hs
  unfold World.make
  rw [show retag (if excl then Kind.mut else Kind.shared) p n w.st = _ from e]
  dsimp only
  let ρ : Ref := ⟨w.st.next, p.off, n, excl, init, x⟩
  have htop : ∀ b i, In (place w.st p) n b i → ∃ rest, s'.stack b i = ⟨ρ.perm, w.st.next, none⟩ :: rest ∧ Facts w b i rest := fun b i hi => by
    cases excl with
    | true => obtain ⟨rest, h1, h2⟩ := Retagged.top_mut hR hi; exact ⟨rest, h1, hw rfl b i hi rest h2⟩
    | false => obtain ⟨rest, h1, h2⟩ := Retagged.top_shared hR (.inl rfl) hi; exact ⟨rest, h1, hr rfl b i hi rest h2⟩
  have hG : ∃ G, AfterCall w.st s' G ∧ ∀ b i, G b i ≠ .own := by
    cases excl with
    | true =>
      refine ⟨_, Retagged.after_mut hR, fun b i => ?_⟩
      by_cases hi : In (place w.st p) n b i
      · rw [over_in hi]; nofun
      · rw [over_out hi]; nofun
    | false =>
      refine ⟨_, Retagged.after_shared hR (.inl rfl), fun b i => ?_⟩
      by_cases hi : In (place w.st p) n b i
      · rw [over_in hi]; nofun
      · rw [over_out hi]; nofun
  obtain ⟨G, hA, hO⟩ := hG
  have hF : ∀ b i, Facts w b i (s'.stack b i) := fun b i => by
    by_cases hi : In (place w.st p) n b i
    · obtain ⟨rest, h1, h2⟩ := htop b i hi
      rw [h1]
      exact Facts.above (new := [_]) hI h2 fun it hit => by rw [List.mem_singleton.1 hit]; exact ⟨Nat.le_refl _, rfl⟩
    · rw [hR.outside b i hi]; exact hI.facts b i
  obtain ⟨h1, h2⟩ := hI.stay (W := fun _ _ => False) hA (hm ▸ .refl _ _) (by rw [hm]) hO hF (fun _ _ _ _ _ h => h) fun _ _ _ _ _ _ _ h => h
  have hO := (hI.base.valid x o ho).owns
  have hcov : ∀ b i, World.Covers ⟨⟨w.vars, s'⟩, w.refs⟩ ρ b i → In (place w.st p) n b i := fun b i hi => ⟨hi.1.trans hR.home_new, hi.2⟩
  have hcov' : ∀ r ρ' b i, w.refs r = some ρ' → World.Covers ⟨⟨w.vars, s'⟩, w.refs⟩ ρ' b i → w.Covers ρ' b i := fun r ρ' b i hr hc => by
    obtain ⟨o', -, h3⟩ := hI.refs r ρ' hr
    exact ⟨hc.1.trans (hA.home _ h3.tag), hc.2⟩
  refine ⟨h1.add (w := ⟨⟨w.vars, s'⟩, w.refs⟩) hk (ρ := ρ) (o := o) ho ⟨?_, ?_, hn, ht, fun hi => ?_, fun i hi1 hi2 => ?_, hO.tag⟩ (fun r ρ' hr => ?_) fun hex r ρ' b i hr hc hc' => ?_, fun r ρ' hr hx' hr' => ?_⟩
  · show w.st.next < s'.next
    rw [hR.next]; omega
  · show s'.home w.st.next = s'.home _
    rw [hR.home_new, hh, hA.home _ hO.tag]
  · show ∃ xs, xs.length = n ∧ Reads s'.mem (place s' ⟨w.st.next, p.off⟩) xs
    rw [hR.place_new, hm]; exact hc hi
  · have hin : In (place w.st p) n (w.st.home p.buf) i := ⟨rfl, hi1, hi2⟩
    obtain ⟨rest, h3, h4⟩ := htop _ _ hin
    show Has ρ.perm w.st.next _ (s'.stack (s'.home w.st.next) i)
    rw [hR.home_new, h3]
    exact ⟨[], rest, rfl, nofun, (h4 x o ho hh.symm (by have : i < p.off + n := hi2; omega)).2.1⟩
  · obtain ⟨o', -, h3⟩ := hI.refs r ρ' hr
    exact h3.tag
  · exact hx hex r ρ' b i hr (hcov b i hc) (hcov' r ρ' b i hr hc')
  · refine h2 r ρ' hr hx' ?_
    exact hr

theorem borrow_fine (hI : RInv P w) {k : Nat} {excl init : Bool} {p : Ptr} {n : Nat} (hk : w.Unused k) (hc : init = true → w.Inits p n) (hw : excl = true → w.CanWrite p n) (hr : excl = false → w.CanRead p n) :
    Fine P w T (w.make k excl init (w.ownerOf p.buf) ⟨w.name p.buf, p.off⟩ n) := by
  have hin : w.Within p n := by
    cases excl with
    | true => exact CanWrite.within (hw rfl)
    | false => exact Inits.within hI (hr rfl).1
  obtain ⟨o, h1, h2, h3, h4, h5, h6, -⟩ := Within.owner hI hin
  refine push_fine hI hk h1 h3 h4 (fun he ht => CanWrite.not_text hI (hw he) h1 ht) (fun hi => Inits.reads hI (hc hi)) (fun b i hi => ?_) (fun he b i hi rest e => ?_) (fun he b i hi rest e => ?_) fun he r ρ b i hρ hi hc => ?_
  · cases excl with
    | true => rw [if_pos rfl, Kind.apply, Option.isSome_map]; exact CanWrite.mutable hI (hw rfl) b i hi
    | false => rw [if_neg (by decide), Kind.apply, Option.isSome_map]; exact (CanRead.source hI (hr rfl)).readable b i hi
  · exact (CanWrite.permits hI (hw he) hi).write hI e
  · exact (CanRead.permits hI (hr he) hi).read hI e
  · exact (CanWrite.permits hI (hw he) hi).no_shared hI hρ hc

theorem forget_fine (hI : RInv P w) (k : Nat) : Fine P w T (.ok { w with refs := w.setRef k none }) := by
  have hset : ∀ r ρ, w.setRef k none r = some ρ → w.refs r = some ρ := fun r ρ h => by
    unfold World.setRef at h
    split at h
    · cases h
    · exact h
  exact ⟨⟨hI.base, fun r ρ h => hI.names r ρ (hset r ρ h), fun r ρ h => hI.refs r ρ (hset r ρ h), fun r r' ρ ρ' b i h h' => hI.order r r' ρ ρ' b i (hset r ρ h) (hset r' ρ' h')⟩, fun _ _ _ _ _ _ _ h => h⟩

end Simd.Lend
