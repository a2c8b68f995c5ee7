import Verif.Lemmas.TreeUse
import Verif.Lemmas.LendCalls
/-
Every step that safe Rust allows, other than calls, keeps the variables and references of a program valid, with borrow trees.
-/
namespace Simd.Tree.Use
open Spec
open Lend (Ref)
open Client (IsText)

variable {M : Machine} {P : Plat} {w : World} {T : Option Nat}

/-- What is to be shown of a step. -/
def Fine (P : Plat) (w : World) (T : Option Nat) : End → Prop
  | .ok w' => Inv P w' ∧ Frozen w w' T
  | .panic => True
  | .ub => False

theorem Frozen.trans {w w1 w2 : World} (h : Frozen w w1 T) (h' : Frozen w1 w2 T) (hr : ∀ r ρ, w.refs r = some ρ → w2.refs r = some ρ → w1.refs r = some ρ) : Frozen w w2 T :=
  fun r ρ h1 h2 h3 xs hl hx => h' r ρ (hr r ρ h1 h3) h2 h3 xs hl (h r ρ h1 h2 (hr r ρ h1 h3) xs hl hx)

/-! ### Names -/

theorem Inv.var_name (hI : Inv P w) {x : Nat} {o : Owned} (h : w.vars x = some o) : w.name x = (Spec.ownerOf o).1.buf ∧ w.ownerOf x = x ∧ w.refs x = none := by
  have hn : w.refs x = none := by
    cases e : w.refs x with
    | none => rfl
    | some ρ => rw [hI.names x ρ e] at h; cases h
  refine ⟨?_, ?_, hn⟩
  · unfold World.name; rw [hn, h]
  · unfold World.ownerOf; rw [hn]

theorem ref_name {k : Nat} {ρ : Ref} (h : w.refs k = some ρ) : w.name k = ρ.tag ∧ w.ownerOf k = ρ.owner := by
  unfold World.name World.ownerOf; rw [h]; exact ⟨rfl, rfl⟩

/-- The bytes that a name gives access to. -/
def World.Within (w : World) (p : Ptr) (n : Nat) : Prop :=
  (∃ o, w.vars p.buf = some o ∧ p.off + n ≤ (Spec.ownerOf o).2) ∨ ∃ ρ, w.refs p.buf = some ρ ∧ ρ.off ≤ p.off ∧ p.off + n ≤ ρ.off + ρ.len

theorem Inv.len_le (hI : Inv P w) {x : Nat} {o : Owned} (h : w.vars x = some o) : Client.len o ≤ (Spec.ownerOf o).2 := by
  obtain ⟨ys, h1, h2, -⟩ := (hI.valid x o h).content
  have := h2.1
  have e : w.st.mem.size (place w.st (Spec.ownerOf o).1).buf = (Spec.ownerOf o).2 := (hI.valid x o h).owns.size
  omega

theorem Inits.within (hI : Inv P w) {p : Ptr} {n : Nat} (h : w.Inits p n) : w.Within p n := by
  rcases h with ⟨o, h1, h2⟩ | ⟨ρ, h1, h2, h3, -⟩
  · have := hI.len_le h1
    exact .inl ⟨o, h1, by omega⟩
  · exact .inr ⟨ρ, h1, h2, h3⟩

theorem CanWrite.within {p : Ptr} {n : Nat} (h : w.CanWrite p n) : w.Within p n := by
  rcases h.1 with ⟨o, h1, h2, -⟩ | ⟨ρ, h1, h2, h3, -⟩
  · exact .inl ⟨o, h1, h2⟩
  · exact .inr ⟨ρ, h1, h2, h3⟩

/-- The variable behind a name. -/
structure Behind (P : Plat) (w : World) (p : Ptr) (n : Nat) (o : Owned) : Prop where
  var : w.vars (w.ownerOf p.buf) = some o
  tag : w.name p.buf < w.st.next
  home : w.st.home (w.name p.buf) = w.st.home (Spec.ownerOf o).1.buf
  within : p.off + n ≤ (Spec.ownerOf o).2
  owns : Owns w.st (Spec.ownerOf o).1 (Spec.ownerOf o).2
  max : (Spec.ownerOf o).2 ≤ P.isizeMax
  up : w.st.up (w.name p.buf) (Spec.ownerOf o).1.buf = true

theorem Within.owner (hI : Inv P w) {p : Ptr} {n : Nat} (h : w.Within p n) : ∃ o, Behind P w p n o := by
  rcases h with ⟨o, h1, h2⟩ | ⟨ρ, h1, h2, h3⟩
  · obtain ⟨e1, e2, -⟩ := hI.var_name h1
    have hV := hI.valid _ o h1
    exact ⟨o, by rw [e2]; exact h1, by rw [e1]; exact hI.tag h1, by rw [e1], h2, hV.owns, hV.max, by rw [e1]; exact hI.sound.self _ (hI.tag h1)⟩
  · obtain ⟨e1, e2⟩ := ref_name h1
    obtain ⟨o, h4, h5⟩ := hI.refs _ ρ h1
    have hV := hI.valid _ o h4
    have := h5.within
    exact ⟨o, by rw [e2]; exact h4, by rw [e1]; exact h5.tag, by rw [e1]; exact h5.home, by omega, hV.owns, hV.max, by rw [e1]; exact h5.up⟩

theorem Inits.reads (hI : Inv P w) {p : Ptr} {n : Nat} (h : w.Inits p n) : ∃ xs, xs.length = n ∧ Reads w.st.mem (place w.st ⟨w.name p.buf, p.off⟩) xs := by
  obtain ⟨o', g⟩ := Within.owner hI (Inits.within hI h)
  rcases h with ⟨o, h1, h2⟩ | ⟨ρ, h1, h2, h3, h4⟩
  · obtain ⟨ys, h3, h4, -⟩ := (hI.valid _ o h1).content
    obtain ⟨xs, h5, h6⟩ := h4.part (k := p.off) (n := n) (by omega)
    refine ⟨xs, h5, ?_⟩
    have e : (place w.st (Spec.ownerOf o).1).off = 0 := (hI.valid _ o h1).owns.start
    rw [e, Nat.zero_add] at h6
    unfold place
    rw [(hI.var_name h1).1]
    exact h6
  · rcases Nat.eq_zero_or_pos n with rfl | hn
    · refine ⟨[], rfl, ?_, fun i hi => absurd hi (Nat.not_lt_zero _)⟩
      show p.off + 0 ≤ w.st.mem.size (w.st.home _)
      rw [g.home, g.owns.size]; exact g.within
    · obtain ⟨o, -, h6⟩ := hI.refs _ ρ h1
      obtain ⟨ys, h7, h8⟩ := h6.content (h4 hn)
      obtain ⟨xs, h9, h10⟩ := h8.part (k := p.off - ρ.off) (n := n) (by omega)
      refine ⟨xs, h9, ?_⟩
      have e : (⟨(place w.st ⟨ρ.tag, ρ.off⟩).buf, (place w.st ⟨ρ.tag, ρ.off⟩).off + (p.off - ρ.off)⟩ : Ptr) = place w.st ⟨w.name p.buf, p.off⟩ := by
        rw [(ref_name h1).1]
        show (⟨w.st.home ρ.tag, ρ.off + (p.off - ρ.off)⟩ : Ptr) = ⟨_, _⟩
        rw [show ρ.off + (p.off - ρ.off) = p.off by omega]
      rwa [e] at h10

/-- The byte is one that the name's owner has. -/
theorem Within.inside (hI : Inv P w) {p : Ptr} {n b i : Nat} (h : w.Within p n) (hi : In (place w.st ⟨w.name p.buf, p.off⟩) n b i) :
    (∃ o, w.vars p.buf = some o ∧ w.name p.buf = (Spec.ownerOf o).1.buf ∧ w.st.home (w.name p.buf) = b ∧ i < (Spec.ownerOf o).2) ∨ ∃ ρ, w.refs p.buf = some ρ ∧ ρ.tag = w.name p.buf ∧ w.Covers ρ b i := by
  obtain ⟨h1, h2, h3⟩ := hi
  dsimp only [place] at h1 h2 h3
  rcases h with ⟨o, h4, h5⟩ | ⟨ρ, h4, h5, h6⟩
  · exact .inl ⟨o, h4, (hI.var_name h4).1, h1.symm, by omega⟩
  · exact .inr ⟨ρ, h4, (ref_name h4).1.symm, by rw [h1, (ref_name h4).1], by dsimp only; omega, by dsimp only; omega⟩

theorem CanRead.permits (hI : Inv P w) {p : Ptr} {n : Nat} (h : w.CanRead p n) {b i : Nat} (hi : In (place w.st ⟨w.name p.buf, p.off⟩) n b i) : Permits w b i (.shared (w.name p.buf)) := by
  refine ⟨?_, h.2 b i hi⟩
  rcases Within.inside hI (Inits.within hI h.1) hi with ⟨o, h1, h2, h3, -⟩ | ⟨ρ, h1, h2, h3⟩
  · exact .inl ⟨_, o, h1, h2, h3⟩
  · exact .inr ⟨_, ρ, h1, h2, h3⟩

theorem CanWrite.permits (hI : Inv P w) {p : Ptr} {n : Nat} (h : w.CanWrite p n) {b i : Nat} (hi : In (place w.st ⟨w.name p.buf, p.off⟩) n b i) : Permits w b i (.excl (w.name p.buf)) := by
  refine ⟨?_, h.2 b i hi⟩
  obtain ⟨h1, h2, h3⟩ := hi
  dsimp only [place] at h1 h2 h3
  rcases h.1 with ⟨o, h4, h5, h6⟩ | ⟨ρ, h4, h5, h6, h7⟩
  · exact .inl ⟨_, o, h4, (hI.var_name h4).1, h1.symm, h6 (by omega)⟩
  · exact .inr ⟨_, ρ, h4, (ref_name h4).1.symm, ⟨by rw [h1, (ref_name h4).1], by dsimp only; omega, by dsimp only; omega⟩, h7 (by omega)⟩

theorem Allowed.read {s : State} {w : Bool} {t b i : Nat} (h : Allowed s w t b i) : Allowed s false t b i := by
  cases w
  · exact h
  · refine ⟨h.1, h.2.1, fun u hu => ?_⟩
    obtain ⟨c, hc⟩ := Option.isSome_iff_exists.1 (h.2.2 u hu)
    obtain ⟨c1, h1, -⟩ := Cell.read_first hc
    show (Cell.step _ _ _ _).isSome
    rw [h1]; rfl

/-- The owner may do everything to its memory. -/
theorem Inv.owner_allowed (hI : Inv P w) {x : Nat} {o : Owned} (h : w.vars x = some o) {i : Nat} (hi : i < (Spec.ownerOf o).2) : Allowed w.st true (Spec.ownerOf o).1.buf (w.st.home (Spec.ownerOf o).1.buf) i := by
  have hO := (hI.valid x o h).owns
  exact hO.mutable.2 _ i ⟨rfl, by have := hO.start; simp only [place]; omega, by have := hO.start; simp only [place]; omega⟩

theorem Inv.ref_allowed (hI : Inv P w) {r : Nat} {ρ : Ref} (h : w.refs r = some ρ) {b i : Nat} (hc : w.Covers ρ b i) : Allowed w.st ρ.excl ρ.tag b i := by
  obtain ⟨o, -, h2⟩ := hI.refs r ρ h
  obtain ⟨rfl, h3, h4⟩ := hc
  exact h2.allowed i h3 h4

theorem CanRead.readable (hI : Inv P w) {p : Ptr} {n : Nat} (h : w.CanRead p n) : Readable w.st ⟨w.name p.buf, p.off⟩ n := by
  obtain ⟨o, g⟩ := Within.owner hI (Inits.within hI h.1)
  refine ⟨g.tag, fun b i hi => ?_⟩
  rcases Within.inside hI (Inits.within hI h.1) hi with ⟨o', h7, h8, rfl, h9⟩ | ⟨ρ, h7, h8, h9⟩
  · show Allowed w.st false (w.name p.buf) (w.st.home (w.name p.buf)) i
    rw [h8]; exact Allowed.read (hI.owner_allowed h7 h9)
  · dsimp only; rw [← h8]; exact Allowed.read (hI.ref_allowed h7 h9)

theorem CanWrite.mutable (hI : Inv P w) {p : Ptr} {n : Nat} (h : w.CanWrite p n) : Mutable w.st ⟨w.name p.buf, p.off⟩ n := by
  obtain ⟨o, g⟩ := Within.owner hI (CanWrite.within h)
  refine ⟨g.tag, fun b i hi => ?_⟩
  rcases Within.inside hI (CanWrite.within h) hi with ⟨o', h7, h8, rfl, h9⟩ | ⟨ρ, h7, h8, h9⟩
  · show Allowed w.st true (w.name p.buf) (w.st.home (w.name p.buf)) i
    rw [h8]; exact hI.owner_allowed h7 h9
  · have hx := (CanWrite.permits hI h hi).no_shared hI h7 h9
    have := hI.ref_allowed h7 h9
    rw [hx, h8] at this
    exact this

/-- What can be written is not text. -/
theorem CanWrite.not_text (hI : Inv P w) {p : Ptr} {n : Nat} (h : w.CanWrite p n) {o : Owned} (ho : w.vars (w.ownerOf p.buf) = some o) (ht : IsText o) : n = 0 := by
  rcases Nat.eq_zero_or_pos n with h0 | hn
  · exact h0
  · exfalso
    have hin : In (place w.st ⟨w.name p.buf, p.off⟩) n (w.st.home (w.name p.buf)) p.off := ⟨rfl, Nat.le_refl _, by show p.off < p.off + n; omega⟩
    obtain ⟨o', g⟩ := Within.owner hI (CanWrite.within h)
    have h1 := g.var
    rw [ho] at h1; cases h1
    have hp := CanWrite.permits hI h hin
    rw [g.home] at hp
    exact hp.no_text hI ho ht

/-! ### Reading and writing -/

theorem over_spares {p : Ptr} {n : Nat} {l : Loan} (h : ∀ b i, In p n b i → Spares w b i l) (b i : Nat) : Spares w b i (over p n l nothing b i) := by
  by_cases hi : In p n b i
  · rw [over_in hi]; exact h b i hi
  · rw [over_out hi]; exact fun _ _ _ _ _ => ⟨trivial, fun _ _ _ _ => trivial⟩

/-- A read of bytes through a tag. -/
theorem load_shared {s : State} {p : Ptr} {k : Nat} (hs : Sound s) (hr : Readable s p k) {xs : List Byte} (hl : xs.length = k) (hx : Reads s.mem (place s p) xs) :
    ∃ s', prog (loadBytes p k) s = .ok xs s' ∧ s'.mem = s.mem ∧ AfterCall s s' (over (place s p) k (.shared p.buf) nothing) := by
  obtain ⟨S, h1, h2, h3⟩ := touch_ok hr.2
  subst hl
  have e' : prog (loadBytes p xs.length) s = match s.touch false p xs.length, s.mem.read (place s p) xs.length with | some st, some bs => .ok bs { s with cell := st } | _, _ => .ub := by
    unfold loadBytes
    rw [prog]
    show (match s.touch false p xs.length, s.mem.read (place s p) xs.length with | some st, some bs => _ | _, _ => _) = _
    cases s.touch false p xs.length <;> cases s.mem.read (place s p) xs.length <;> rfl
  rw [e', h1, hx.has.read]
  exact ⟨_, rfl, rfl, access_after (μ := s.mem) hs h2 h3 (.inr ⟨rfl, rfl⟩) rfl rfl⟩

theorem read_fine (hI : Inv P w) {p : Ptr} {n : Nat} (h : w.CanRead p n) : Fine P w T (exec P w (.read p n)) := by
  obtain ⟨xs, hl, hx⟩ := Inits.reads hI h.1
  obtain ⟨s', e, hm, hA⟩ := load_shared hI.sound (CanRead.readable hI h) hl hx
  show Fine P w T (w.after (prog (loadBytes ⟨w.name p.buf, p.off⟩ n) w.st) fun _ => w.vars)
  rw [e]
  exact hI.stay (W := fun _ _ => False) hA (hm ▸ .refl _ _) (by rw [hm]) (over_spares fun b i hi => (CanRead.permits hI h hi).spares hI) fun _ _ h => h.elim

theorem write_fine (hI : Inv P w) {p : Ptr} {bs : List Byte} (h : w.CanWrite p bs.length) : Fine P w (some (w.name p.buf)) (exec P w (.write p bs)) := by
  obtain ⟨o, g⟩ := Within.owner hI (CanWrite.within h)
  have hb : p.off + bs.length ≤ w.st.mem.size (w.st.home (w.name p.buf)) := by rw [g.home, g.owns.size]; exact g.within
  have hs := store_sim (E := fun _ => False) hI.sound (CanWrite.mutable hI h) hb
  have er : (storeBytes (place w.st ⟨w.name p.buf, p.off⟩) bs).run w.st.mem = .ok () (w.st.mem.write (place w.st ⟨w.name p.buf, p.off⟩) bs) := if_pos hb
  rw [er] at hs
  show Fine P w _ (w.after (prog (storeBytes ⟨w.name p.buf, p.off⟩ bs) w.st) fun _ => w.vars)
  cases e : prog (storeBytes ⟨w.name p.buf, p.off⟩ bs) w.st with
  | ok a s' =>
    rw [e] at hs
    obtain ⟨-, hm, hA⟩ := hs
    refine hI.stay hA (hm ▸ .write w.st.mem (place w.st ⟨w.name p.buf, p.off⟩) bs) (by rw [hm]; rfl) (over_spares fun b i hi => (CanWrite.permits hI h hi).spares hI) fun b i hi => ⟨_, rfl, CanWrite.permits hI h hi⟩
  | err | panic | ub => rw [e] at hs; exact hs.elim

/-! ### New references -/

/-- A reference with a new tag. -/
theorem make_fine (hI : Inv P w) {k : Nat} (hk : w.Unused k) {x : Nat} {o : Owned} (ho : w.vars x = some o) {excl init : Bool} {p : Ptr} {n : Nat}
    (hh : w.st.home p.buf = w.st.home (Spec.ownerOf o).1.buf) (hn : p.off + n ≤ (Spec.ownerOf o).2) (ht : excl = true → IsText o → n = 0)
    (hc : init = true → ∃ xs, xs.length = n ∧ Reads w.st.mem (place w.st p) xs) (hr : Readable w.st p n) (hw : excl = true → Mutable w.st p n) (hu : w.st.up p.buf (Spec.ownerOf o).1.buf = true)
    (hx : ∀ r ρ b i, w.refs r = some ρ → In (place w.st p) n b i → w.Covers ρ b i → (ρ.excl = true → w.st.up p.buf ρ.tag = true) ∧ (excl = true → ρ.excl = true)) :
    Fine P w T (w.make k excl init x p n) := by
  have hR := retag_sim (prot := false) (k := if excl then .mut else .shared) (E := fun _ => False) hr
  show Fine P w T (match retagWith false (if excl then .mut else .shared) p n w.st with
    | .ok q s => .ok ⟨w.vars, s, w.setRef k (some ⟨q.buf, p.off, n, excl, init, x⟩)⟩
    | .err s => .ok { w with st := s }
    | .panic => .panic
    | .ub => .ub)
  cases e : retagWith false (if excl then .mut else .shared) p n w.st with
  | err | panic | ub => rw [e] at hR; exact hR.elim
  | ok q s' =>
  rw [e] at hR
  obtain ⟨hm, rfl, hR⟩ := hR
  dsimp only
  let ρ : Ref := ⟨w.st.next, p.off, n, excl, init, x⟩
  have hnx := hR.next
  have htag := hI.tag ho
  have hA := hR.after hI.sound hr.1 (.inl rfl : Of p.buf (.shared p.buf))
  have hsp : ∀ b i, Spares w b i (over (place w.st p) n (.shared p.buf) nothing b i) := over_spares fun b i hi y o' hy hb _ => by
    have e1 := hI.apart y x o' o hy ho (by rw [hb, ← hh]; exact hi.1)
    subst e1
    rw [ho] at hy; cases hy
    refine ⟨⟨hr.1, .inl hu⟩, fun r ρ hρ hc => ⟨hr.1, ?_⟩⟩
    cases hex : ρ.excl with
    | false => exact .inr rfl
    | true => exact .inl ((hx r ρ b i hρ hi hc).1 hex)
  obtain ⟨h1, h2⟩ := hI.stay (W := fun _ _ => False) (T := T) hA (hm ▸ .refl _ _) (by rw [hR.mem]) hsp fun _ _ h => h.elim
  have hset : ∀ r ρ', w.setRef k (some ρ) r = some ρ' → (r = k ∧ ρ' = ρ) ∨ (r ≠ k ∧ w.refs r = some ρ') := fun r ρ' h => by
    unfold World.setRef at h
    split at h
    · exact .inl ⟨by assumption, (Option.some.inj h).symm⟩
    · exact .inr ⟨by assumption, h⟩
  have hcov : ∀ b i, World.Covers ⟨w.vars, s', w.refs⟩ ρ b i → In (place w.st p) n b i := fun b i hi => ⟨hi.1.trans hR.home_new, hi.2⟩
  have hcov' : ∀ r ρ' b i, w.refs r = some ρ' → World.Covers ⟨w.vars, s', w.refs⟩ ρ' b i → w.Covers ρ' b i := fun r ρ' b i hr hc => by
    obtain ⟨o', -, h3⟩ := hI.refs r ρ' hr
    exact ⟨hc.1.trans (hA.home _ h3.tag), hc.2⟩
  have hok : RefOk s' o ρ := by
    refine ⟨by show w.st.next < s'.next; omega, ?_, hn, ht, fun hi => ?_, fun i hi1 hi2 => ?_, htag, ?_⟩
    · show s'.home w.st.next = s'.home _
      rw [hR.home_new, hh, hA.home _ htag]
    · show ∃ xs, xs.length = n ∧ Reads s'.mem (place s' ⟨w.st.next, p.off⟩) xs
      rw [hR.place_new, hR.mem]; exact hc hi
    · have hin : In (place w.st p) n (w.st.home p.buf) i := ⟨rfl, hi1, hi2⟩
      show Allowed s' excl w.st.next (s'.home w.st.next) i
      rw [hR.home_new]
      refine hR.allowed hI.sound hr.1 (fun hex => by rw [hex]; rfl) hin ?_
      cases excl with
      | true => exact (hw rfl).2 _ _ hin
      | false => exact hr.2 _ _ hin
    · show s'.up w.st.next _ = true
      rw [hR.up_new, hu, Bool.or_true]
  refine ⟨⟨h1.sound, h1.guard, h1.valid, h1.apart, h1.freed, fun r ρ' h => ?_, fun r ρ' h => ?_, fun r r' ρ1 ρ2 b i hr1 hr2 hc1 hc2 hle => ?_⟩, fun r ρ' h hf h' => ?_⟩
  · rcases hset r ρ' h with ⟨rfl, -⟩ | ⟨-, h⟩
    · exact hk.1
    · exact hI.names r ρ' h
  · rcases hset r ρ' h with ⟨-, rfl⟩ | ⟨-, h⟩
    · exact ⟨o, ho, hok⟩
    · exact h1.refs r ρ' h
  · show (_ → s'.up _ _ = true) ∧ _
    rcases hset r ρ1 hr1 with ⟨-, rfl⟩ | ⟨-, hr1⟩ <;> rcases hset r' ρ2 hr2 with ⟨-, rfl⟩ | ⟨-, hr2⟩
    · exact ⟨fun _ => h1.sound.self _ hok.tag, id⟩
    · obtain ⟨o', -, h3⟩ := hI.refs r' ρ2 hr2
      have := h3.tag
      have : w.st.next ≤ ρ2.tag := hle
      omega
    · obtain ⟨h3, h4⟩ := hx r ρ1 b i hr1 (hcov b i hc2) (hcov' r ρ1 b i hr1 hc1)
      refine ⟨fun hex => ?_, h4⟩
      show s'.up w.st.next _ = true
      rw [hR.up_new, h3 hex, Bool.or_true]
    · exact h1.order r r' ρ1 ρ2 b i hr1 hr2 hc1 hc2 hle
  · exact h2 r ρ' h hf h

theorem borrow_fine (hI : Inv P w) {k : Nat} {excl init : Bool} {p : Ptr} {n : Nat} (hk : w.Unused k) (hc : init = true → w.Inits p n) (hw : excl = true → w.CanWrite p n) (hr : excl = false → w.CanRead p n) :
    Fine P w T (exec P w (.borrow k excl init p n)) := by
  have hin : w.Within p n := by
    cases excl with
    | true => exact CanWrite.within (hw rfl)
    | false => exact Inits.within hI (hr rfl).1
  obtain ⟨o, g⟩ := Within.owner hI hin
  refine make_fine hI hk g.var g.home g.within (fun he ht => CanWrite.not_text hI (hw he) g.var ht) (fun hi => Inits.reads hI (hc hi)) ?_ (fun he => CanWrite.mutable hI (hw he)) g.up fun r ρ b i hρ hi hcv => ?_
  · cases excl with
    | true => exact (CanWrite.mutable hI (hw rfl)).readable
    | false => exact CanRead.readable hI (hr rfl)
  · have hb : w.st.home (Spec.ownerOf o).1.buf = b := by rw [← g.home]; exact hi.1.symm
    have hi2 : i < (Spec.ownerOf o).2 := by have := hi.2.2; have := g.within; dsimp only [place] at *; omega
    cases excl with
    | true =>
      have hp := CanWrite.permits hI (hw rfl) hi
      exact ⟨fun _ => ((hp.spares hI _ o g.var hb hi2).2 r ρ hρ hcv).2, fun _ => hp.no_shared hI hρ hcv⟩
    | false =>
      have hp := CanRead.permits hI (hr rfl) hi
      refine ⟨fun hex => ?_, nofun⟩
      rcases ((hp.spares hI _ o g.var hb hi2).2 r ρ hρ hcv).2 with h | h
      · exact h
      · rw [hex] at h; cases h

theorem forget_fine (hI : Inv P w) (k : Nat) : Fine P w T (exec P w (.forget k)) := by
  have hset : ∀ r ρ, w.setRef k none r = some ρ → w.refs r = some ρ := fun r ρ h => by
    unfold World.setRef at h
    split at h
    · cases h
    · exact h
  exact ⟨⟨hI.sound, hI.guard, hI.valid, hI.apart, hI.freed, fun r ρ h => hI.names r ρ (hset r ρ h), fun r ρ h => hI.refs r ρ (hset r ρ h), fun r r' ρ ρ' b i h h' => hI.order r r' ρ ρ' b i (hset r ρ h) (hset r' ρ' h')⟩,
    fun _ _ _ _ _ _ _ h => h⟩

/-! ### Steps that change variables -/

theorem Unused.notLent (hI : Inv P w) {x : Nat} (h : w.Unused x) : w.NotLent x := fun r ρ hr e => by
  obtain ⟨o, h1, -⟩ := hI.refs r ρ hr
  rw [e, h.1] at h1; cases h1

/-- A step after which variable `x` holds something else. -/
theorem Inv.assign (hI : Inv P w) {x : Nat} (hx : w.NotLent x) (hu : w.refs x = none) (no : Option Owned) {s' : State} {G : Nat → Nat → Loan} {W : Nat → Nat → Prop} (hA : AfterHeap w.st s' G)
    (hm : MemAfter w.st.mem s'.mem W) (hf : ∀ b, b < w.st.mem.nbuf → (∀ o, w.vars x = some o → w.st.home (Spec.ownerOf o).1.buf ≠ b) → s'.freed b = w.st.freed b)
    (hG : ∀ b i, b < w.st.mem.nbuf → (∀ o, w.vars x = some o → w.st.home (Spec.ownerOf o).1.buf ≠ b) → Spares w b i (G b i))
    (hW : ∀ b i, W b i → w.st.mem.nbuf ≤ b ∨ ∃ o, w.vars x = some o ∧ b = w.st.home (Spec.ownerOf o).1.buf)
    (hv : ∀ o', no = some o' → Valid P s' o' ∧ (w.st.mem.nbuf ≤ s'.home (Spec.ownerOf o').1.buf ∨ ∃ o, w.vars x = some o ∧ s'.home (Spec.ownerOf o').1.buf = w.st.home (Spec.ownerOf o).1.buf))
    (hnew : ∀ b, w.st.mem.nbuf ≤ b → b < s'.mem.nbuf → (∀ o', no = some o' → s'.home (Spec.ownerOf o').1.buf ≠ b) → Freed s' b)
    (hold : ∀ o, w.vars x = some o → (∀ o', no = some o' → s'.home (Spec.ownerOf o').1.buf ≠ w.st.home (Spec.ownerOf o).1.buf) → Freed s' (w.st.home (Spec.ownerOf o).1.buf)) :
    Inv P ⟨w.set x no, s', w.refs⟩ ∧ Frozen w ⟨w.set x no, s', w.refs⟩ T := by
  have hset : w.set x no x = no := if_pos rfl
  have hout : ∀ {b}, w.Out (· = x) b → ∀ o, w.vars x = some o → w.st.home (Spec.ownerOf o).1.buf ≠ b := fun h o ho => h x o rfl ho
  have hnout : ∀ {b}, ¬ w.Out (· = x) b → ∃ o, w.vars x = some o ∧ w.st.home (Spec.ownerOf o).1.buf = b := fun {b} h => Classical.byContradiction fun hc => h fun y o hy ho e => by
    subst hy; exact hc ⟨o, ho, e⟩
  refine hI.change (· = x) hA hm (fun y hy => if_neg hy) (fun r ρ hr => ⟨hx r ρ hr, ?_⟩) (fun b hb ho => hf b hb (hout ho)) (fun b i hb ho => hG b i hb (hout ho)) (fun b i hw hb ho => ?_) (fun y o' hy ho' => ?_)
    (fun y z _ _ hy hz _ _ _ => hy.trans hz.symm) fun b hb hc hn => ?_
  · have : r ≠ x := fun e => by rw [e, hu] at hr; cases hr
    exact (if_neg this).trans (hI.names r ρ hr)
  · rcases hW b i hw with h | ⟨o, h1, h2⟩
    · omega
    · exact absurd h2.symm (hout ho o h1)
  · subst hy
    rw [hset] at ho'
    obtain ⟨h1, h2⟩ := hv o' ho'
    refine ⟨h1, h2.imp id fun ⟨o, h3, h4⟩ h => ?_⟩
    exact hout h o h3 h4.symm
  · have hn' : ∀ o', no = some o' → s'.home (Spec.ownerOf o').1.buf ≠ b := fun o' h => hn x o' rfl (hset.trans h)
    rcases hc with h | h
    · exact hnew b h hb hn'
    · obtain ⟨o, h1, rfl⟩ := hnout h
      exact hold o h1 hn'

/-- The same memory, as another kind of value. -/
theorem Inv.recast (hI : Inv P w) {x : Nat} {o o' : Owned} (ho : w.vars x = some o) (hx : w.NotLent x) (he : Spec.ownerOf o' = Spec.ownerOf o)
    (hc : ∃ ys, ys.length = Client.len o' ∧ Reads w.st.mem (place w.st (Spec.ownerOf o).1) ys ∧ (IsText o' → ValidUtf8 ys)) : Fine P w T (.ok { w with vars := w.set x (some o') }) := by
  have hV := hI.valid x o ho
  refine hI.assign (G := nothing) (W := fun _ _ => False) hx (hI.var_name ho).2.2 (some o') (AfterCall.refl hI.sound _).heap (.refl _ _) (fun _ _ _ => rfl) (fun _ _ _ _ _ _ _ _ _ => ⟨trivial, fun _ _ _ _ => trivial⟩)
    (fun _ _ h => h.elim) (fun o2 e => ?_) (fun b h1 h2 => absurd h2 (Nat.not_lt.2 h1)) fun o2 h2 h3 => ?_
  · cases e
    exact ⟨⟨by rw [he]; exact hV.owns, by rw [he]; exact hV.max, by rw [he]; exact hc⟩, .inr ⟨o, ho, by rw [he]⟩⟩
  · rw [ho] at h2; cases h2
    exact absurd (by rw [he]) (h3 o' rfl)

theorem truncate_fine (hI : Inv P w) {x n : Nat} {v : RVec} (h : w.vars x = some (.vec v)) (hx : w.NotLent x) : Fine P w T (exec P w (.truncate x n)) := by
  show Fine P w T (.ok { w with vars := w.set x ((w.vars x).map (Client.shorter n)) })
  rw [h]
  obtain ⟨ys, h1, h2, -⟩ := (hI.valid x _ h).content
  obtain ⟨xs, h3, h4⟩ := h2.part (k := 0) (n := min n v.len) (by rw [h1]; show 0 + min n v.len ≤ v.len; omega)
  exact hI.recast h hx (o' := .vec { v with len := min n v.len }) rfl ⟨xs, h3, h4, False.elim⟩

theorem intoBytes_fine (hI : Inv P w) {x : Nat} {o : Owned} (h : w.vars x = some o) (hx : w.NotLent x) : Fine P w T (exec P w (.intoBytes x)) := by
  show Fine P w T (.ok { w with vars := w.set x ((w.vars x).map Client.intoBytes) })
  rw [h]
  obtain ⟨ys, h1, h2, -⟩ := (hI.valid x _ h).content
  refine hI.recast h hx (o' := Client.intoBytes o) (by cases o <;> rfl) ⟨ys, by rw [h1]; cases o <;> rfl, h2, fun ht => ?_⟩
  cases o <;> exact ht.elim

theorem move_fine (hI : Inv P w) {x y : Nat} {o : Owned} (h : w.vars x = some o) (hx : w.NotLent x) (hy : w.Unused y) : Fine P w T (exec P w (.move x y)) := by
  have hne : x ≠ y := fun e => by rw [e, hy.1] at h; cases h
  have hny := Unused.notLent hI hy
  have e1 : (if y = y then w.vars x else if y = x then none else w.vars y) = some o := (if_pos rfl).trans h
  have e2 : (if x = y then w.vars x else if x = x then none else w.vars x) = none := (if_neg hne).trans (if_pos rfl)
  have hout : ¬ w.Out (fun z => z = x ∨ z = y) (w.st.home (Spec.ownerOf o).1.buf) := fun hO => hO x o (.inl rfl) h rfl
  refine hI.change (G := nothing) (W := fun _ _ => False) (fun z => z = x ∨ z = y) (AfterCall.refl hI.sound _).heap (.refl _ _) (fun z hz => ?_) (fun r ρ hr => ⟨fun hc => ?_, ?_⟩) (fun _ _ _ => rfl)
    (fun _ _ _ _ _ _ _ _ _ => ⟨trivial, fun _ _ _ _ => trivial⟩) (fun _ _ h => h.elim) (fun z o' hz ho' => ?_) (fun z z' o1 o2 hz hz' h1 h2 _ => ?_) fun b hb hc hn => ?_
  · have h1 : z ≠ y := fun e => hz (.inr e)
    have h2 : z ≠ x := fun e => hz (.inl e)
    exact (if_neg h1).trans (if_neg h2)
  · exact hc.elim (hx r ρ hr) (hny r ρ hr)
  · have h1 : r ≠ y := fun e => by rw [e, hy.2] at hr; cases hr
    refine (if_neg h1).trans ?_
    split
    · rfl
    · exact hI.names r ρ hr
  · rcases hz with rfl | rfl
    · rw [e2] at ho'; cases ho'
    · rw [e1] at ho'; cases ho'
      exact ⟨hI.valid x o h, .inr hout⟩
  · rcases hz with rfl | rfl
    · rw [e2] at h1; cases h1
    · rcases hz' with rfl | rfl
      · rw [e2] at h2; cases h2
      · rfl
  · rcases hc with hc | hc
    · exact absurd hb (Nat.not_lt.2 hc)
    · refine absurd (fun z o' hz ho' e => ?_) hc
      rcases hz with rfl | rfl
      · rw [h] at ho'; cases ho'
        exact hn y o (.inr rfl) e1 e
      · rw [hy.1] at ho'; cases ho'

theorem drop_eq (o : Owned) : dropOwned o = if (Spec.ownerOf o).2 = 0 then pure () else dealloc (Spec.ownerOf o).1 (Spec.ownerOf o).2 := by cases o <;> rfl

theorem drop_fine (hI : Inv P w) {x : Nat} {o : Owned} (ho : w.vars x = some o) (hx : w.NotLent x) : Fine P w T (exec P w (.drop x)) ∧ exec P w (.drop x) ≠ .panic := by
  have hO := (hI.valid x o ho).owns
  have h := drop_sim (E := fun _ => False) (drop_eq o) hI.sound hO
  have e : exec P w (.drop x) = w.after (dropOwned o w.st) fun _ => w.set x none := by
    show (match w.vars x with | some o => w.after (dropOwned o w.st) fun _ => w.set x none | none => .ub) = _
    rw [ho]
  rw [e]
  cases e : dropOwned o w.st with
  | err | panic | ub => rw [e] at h; exact h.elim
  | ok a s' =>
    rw [e] at h
    obtain ⟨hm, hA, hF, hK⟩ := h
    refine ⟨?_, nofun⟩
    refine hI.assign (W := fun _ _ => False) hx (hI.var_name ho).2.2 none hA (hm ▸ .refl _ _) (fun b _ hb => hK b (Ne.symm (hb o ho))) (fun b i _ hb => ?_) (fun _ _ h => h.elim) (fun _ e => nomatch e)
      (fun b h1 h2 => by rw [hm] at h2; omega) fun o2 h2 _ => ?_
    · have : ¬ In (place w.st (Spec.ownerOf o).1) (Spec.ownerOf o).2 b i := fun hi => hb o ho hi.1.symm
      unfold G1
      rw [over_out this]
      exact fun _ _ _ _ _ => ⟨trivial, fun _ _ _ _ => trivial⟩
    · rw [ho] at h2; cases h2; exact hF

/-! ### A new variable -/

theorem create_sim {s : State} (hs : Sound s) {bs : List Byte} {cap : Nat} (h : bs.length ≤ cap) :
    ∃ s', prog (Client.create bs cap) s = .ok s.next s' ∧ s'.mem = (s.mem.alloc cap).write ⟨s.mem.nbuf, 0⟩ bs ∧ s'.home s.next = s.mem.nbuf ∧ AfterCall s s' nothing ∧ Mutable s' ⟨s.next, 0⟩ cap := by
  have hN := owner_alloc (s := s) hs cap
  have hA := after_alloc (s := s) hs cap
  have hS := sound_alloc (s := s) hs cap
  have hh : (State.allocated s cap).home s.next = s.mem.nbuf := if_pos rfl
  have hz : (State.allocated s cap).mem.size s.mem.nbuf = cap := if_pos rfl
  have hm : Mutable (State.allocated s cap) ⟨s.next, 0⟩ cap := hN.mutable
  have hst := store_sim (E := fun _ => False) (bs := bs) hS (hm.mono h) (by show 0 + bs.length ≤ (State.allocated s cap).mem.size ((State.allocated s cap).home s.next); rw [hh, hz]; omega)
  have er : (storeBytes (place (State.allocated s cap) ⟨s.next, 0⟩) bs).run (State.allocated s cap).mem = .ok () ((State.allocated s cap).mem.write (place (State.allocated s cap) ⟨s.next, 0⟩) bs) :=
    if_pos (by show 0 + bs.length ≤ (State.allocated s cap).mem.size ((State.allocated s cap).home s.next); rw [hh, hz]; omega)
  rw [er] at hst
  have e : prog (Client.create bs cap) s = match prog (storeBytes ⟨s.next, 0⟩ bs) (State.allocated s cap) with | .ok _ s' => .ok s.next s' | .err s' => .err s' | .panic => .panic | .ub => .ub := by
    show prog (storeBytes ⟨s.next, 0⟩ bs >>= fun _ => pure s.next) (State.allocated s cap) = _
    rw [prog_bind]
    show BProg.bind (prog (storeBytes ⟨s.next, 0⟩ bs)) (fun _ => prog (pure s.next)) (State.allocated s cap) = _
    unfold BProg.bind
    cases prog (storeBytes ⟨s.next, 0⟩ bs) (State.allocated s cap) <;> rfl
  rw [e]
  cases e1 : prog (storeBytes ⟨s.next, 0⟩ bs) (State.allocated s cap) with
  | err | panic | ub => rw [e1] at hst; exact hst.elim
  | ok a s' =>
    rw [e1] at hst
    obtain ⟨-, h1, h2⟩ := hst
    have hpl : place (State.allocated s cap) ⟨s.next, 0⟩ = ⟨s.mem.nbuf, 0⟩ := by unfold place; rw [hh]
    refine ⟨s', rfl, by rw [h1, hpl]; rfl, ?_, hA.pushN h2 nothing_tag fun b i u hu => .inl ?_, h2.mutable (fun b i hi => ?_) hm⟩
    · rw [h2.home _ (Nat.lt_succ_self _)]; exact hh
    · have hb : b < s.mem.nbuf := by rw [← hu.2]; exact hs.alloc u hu.1
      have : ¬ In (place (State.allocated s cap) ⟨s.next, 0⟩) bs.length b i := fun hi => by rw [hpl] at hi; have := hi.1; dsimp only at this; omega
      unfold G1; rw [over_out this]; rfl
    · by_cases hi' : In (place (State.allocated s cap) ⟨s.next, 0⟩) bs.length b i
      · unfold G1; rw [over_in hi']; exact .inr (.inr rfl)
      · unfold G1; rw [over_out hi']; exact .inl rfl

theorem new_value (hs : Sound w.st) (x : Nat) (text : Bool) {bs : List Byte} {cap : Nat} (hl : bs.length ≤ cap) :
    ∃ s', exec P w (.new x text bs cap) = .ok ⟨w.set x (some (if text then .string ⟨w.st.next, bs.length, cap⟩ else .vec ⟨w.st.next, bs.length, cap⟩)), s', w.refs⟩ ∧ s'.home w.st.next = w.st.mem.nbuf ∧
      Reads s'.mem (place s' ⟨w.st.next, 0⟩) bs ∧ s'.mem = (w.st.mem.alloc cap).write ⟨w.st.mem.nbuf, 0⟩ bs ∧ AfterCall w.st s' nothing ∧ Mutable s' ⟨w.st.next, 0⟩ cap := by
  obtain ⟨s', e, hm, hh, hA, hM⟩ := create_sim (bs := bs) hs hl
  refine ⟨s', ?_, hh, ?_, hm, hA, hM⟩
  · show w.after (prog (Client.create bs cap) w.st) _ = _
    rw [e]; rfl
  · have hp : place s' ⟨w.st.next, 0⟩ = ⟨w.st.mem.nbuf, 0⟩ := by unfold place; rw [hh]
    rw [hp, hm]
    refine ⟨?_, fun i hi => ?_⟩
    · show 0 + bs.length ≤ if w.st.mem.nbuf = w.st.mem.nbuf then cap else _
      rw [if_pos rfl]; omega
    · show (if w.st.mem.nbuf = w.st.mem.nbuf ∧ 0 ≤ 0 + i ∧ 0 + i < 0 + bs.length then bs[0 + i - 0]? else _) = _
      rw [if_pos ⟨rfl, by omega, by omega⟩]
      rw [show 0 + i - 0 = i by omega, List.getElem?_eq_getElem hi]

theorem new_fine (hI : Inv P w) {x : Nat} {text : Bool} {bs : List Byte} {cap : Nat} (hx : w.Unused x) (hl : bs.length ≤ cap) (hc : cap ≤ P.isizeMax) (ht : text = true → ValidUtf8 bs) :
    Fine P w T (exec P w (.new x text bs cap)) := by
  obtain ⟨s', e, hh, hrd, hm, hA, hM⟩ := new_value (P := P) hI.sound x text hl
  rw [e]
  have ho : Spec.ownerOf (if text then Owned.string ⟨w.st.next, bs.length, cap⟩ else .vec ⟨w.st.next, bs.length, cap⟩) = (⟨w.st.next, 0⟩, cap) := by cases text <;> rfl
  have hlen : Client.len (if text then Owned.string ⟨w.st.next, bs.length, cap⟩ else .vec ⟨w.st.next, bs.length, cap⟩) = bs.length := by cases text <;> rfl
  have hma : MemAfter w.st.mem s'.mem (fun b _ => b = w.st.mem.nbuf) := hm ▸ (MemAfter.alloc ..).trans ((MemAfter.write ..).mono fun b i h => h.1)
  refine hI.assign (Unused.notLent hI hx) hx.2 _ hA.heap hma (fun b hb _ => hA.kept b hb) (fun _ _ _ _ _ _ _ _ _ => ⟨trivial, fun _ _ _ _ => trivial⟩) (fun b i h => .inl (Nat.le_of_eq h.symm)) (fun o' e' => ?_) (fun b h1 h2 h3 => ?_) fun o h => ?_
  · cases e'
    refine ⟨⟨?_, by rw [ho]; exact hc, bs, hlen.symm, by rw [ho]; exact hrd, fun h => ht ?_⟩, .inl (by rw [ho]; exact Nat.le_of_eq hh.symm)⟩
    · rw [ho]
      refine ⟨rfl, by rw [hh, hm]; exact if_pos rfl, hM, fun u _ => ?_⟩
      unfold State.prot
      rw [hA.guard, hI.guard]; rfl
    · cases text
      · exact h.elim
      · rfl
  · have h4 := h3 _ rfl
    rw [ho] at h4
    replace h4 : s'.home w.st.next ≠ b := h4
    rw [hh] at h4
    rw [hm] at h2
    have : b < w.st.mem.nbuf + 1 := h2
    omega
  · rw [hx.1] at h; cases h

end Simd.Tree.Use
