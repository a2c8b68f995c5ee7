import Verif.Spec.LendTwin
import Verif.Lemmas.LendPlain
import Verif.Lemmas.Store
/-
A step of a program with references has the same effect on all machines.
-/
namespace Simd.Lend
open Borrow Spec
open Client (Seen)

variable {M : Machine} {P : Plat} {w w' : World}

/-- What a step does, without addresses: the types and lengths, and the references, after it; `ys` is new at `off` in variable `x`; the other bytes of variable `y` are those that variable `f y` had. -/
structure Effect where
  kinds : Nat → Option (EncodeTy × Nat)
  shapes : Nat → Option Ref
  x : Nat
  off : Nat
  ys : List Byte
  f : Nat → Nat

/-- The byte is among the new ones. -/
def Effect.New (E : Effect) (y i : Nat) : Prop := y = E.x ∧ E.off ≤ i ∧ i < E.off + E.ys.length

structure Did (p q : Plain) (E : Effect) : Prop where
  kinds : q.kinds = E.kinds
  shapes : q.shapes = E.shapes
  new : ∀ y i, E.New y i → q.byte y i = E.ys[i - E.off]?
  old : ∀ y i, Known E.kinds E.shapes y i → ¬ E.New y i → Known p.kinds p.shapes (E.f y) i ∧ q.byte y i = p.byte (E.f y) i

theorem Twin.did {w1 w1' : World} (h : Twin w w') {E : Effect} (hd : Did w.plain w1.plain E) (hd' : Did w'.plain w1'.plain E) : Twin w1 w1' := by
  refine ⟨hd.kinds.trans hd'.kinds.symm, hd.shapes.trans hd'.shapes.symm, fun y i hk => ?_⟩
  rw [hd.kinds, hd.shapes] at hk
  by_cases hn : E.New y i
  · rw [hd.new y i hn, hd'.new y i hn]
  · obtain ⟨h1, h2⟩ := hd.old y i hk hn
    rw [h2, (hd'.old y i hk hn).2]
    exact h.bytes _ _ h1

/-! ### Facts about worlds -/

theorem kind_len (o : Owned) : (kind o).2 = Client.len o := by cases o <;> rfl
theorem kind_move (σ : Nat → Nat) (o : Owned) : kind (Moves.move σ o) = kind o := by cases o <;> rfl

theorem plain_kind {x : Nat} {o : Owned} (h : w.vars x = some o) : w.plain.kinds x = some (kind o) := by
  unfold Plain.kinds; rw [plain_var h]; exact congrArg some (kind_move _ o)
theorem plain_shape {r : Nat} {ρ : Ref} (h : w.refs r = some ρ) : w.plain.shapes r = some { ρ with tag := 0 } := by
  unfold Plain.shapes; rw [plain_ref h]; rfl
theorem plain_byte {x : Nat} {o : Owned} (h : w.vars x = some o) (i : Nat) : w.plain.byte x i = w.st.mem.cell (w.st.home (Spec.ownerOf o).1.buf) i := by
  unfold Plain.byte; rw [plain_var h, Option.bind_some, move_owner]; rfl

theorem plain_var_some {x : Nat} {o : Owned} (h : w.plain.vars x = some o) : ∃ o0, w.vars x = some o0 ∧ o = Moves.move w.st.home o0 := by
  have h : (w.vars x).map (Moves.move w.st.home) = some o := h
  obtain ⟨o0, h1, rfl⟩ := Option.map_eq_some_iff.1 h
  exact ⟨o0, h1, rfl⟩

/-- A live reference, seen without its tag. -/
theorem shape_some {r : Nat} {ρ : Ref} (h : w.plain.shapes r = some ρ) : ∃ ρ0, w.refs r = some ρ0 ∧ ρ = { ρ0 with tag := 0 } := by
  have h : ((w.refs r).map _).map _ = some ρ := h
  rw [Option.map_map] at h
  obtain ⟨ρ0, h1, rfl⟩ := Option.map_eq_some_iff.1 h
  exact ⟨ρ0, h1, rfl⟩

/-- The memory of a name is that of its variable. -/
theorem plain_owner (hI : RInv P w) {p : Ptr} {n : Nat} (h : w.Within p n) : ∃ o, w.plain.vars (w.plain.ownerOf p.buf) = some o ∧ (w.plain.at' p).buf = (Spec.ownerOf o).1.buf := by
  obtain ⟨o, h1, -, h2, -⟩ := Within.owner hI h
  refine ⟨Moves.move w.st.home o, by rw [plain_ownerOf]; exact plain_var h1, ?_⟩
  rw [move_owner, ← h2]
  exact alloc_eq hI h

theorem plain_apart (hI : RInv P w) {x y : Nat} {o o' : Owned} (h : w.plain.vars x = some o) (h' : w.plain.vars y = some o') (e : (Spec.ownerOf o).1.buf = (Spec.ownerOf o').1.buf) : x = y := by
  obtain ⟨o0, h1, rfl⟩ := plain_var_some h
  obtain ⟨o1, h2, rfl⟩ := plain_var_some h'
  rw [move_owner, move_owner] at e
  exact hI.base.apart x y _ _ h1 h2 e

theorem plain_exists (hI : RInv P w) {x : Nat} {o : Owned} (h : w.plain.vars x = some o) : (Spec.ownerOf o).1.buf < w.plain.mem.nbuf := by
  obtain ⟨o0, h1, rfl⟩ := plain_var_some h
  rw [move_owner]
  exact (hI.base.valid x o0 h1).owns.exists_

/-- What can be read is known. -/
theorem Inits.known (hI : RInv P w) {p : Ptr} {n : Nat} (h : w.Inits p n) {i : Nat} (h1 : p.off ≤ i) (h2 : i < p.off + n) : Known w.plain.kinds w.plain.shapes (w.plain.ownerOf p.buf) i := by
  rcases h with ⟨o, h3, h4⟩ | ⟨ρ, h3, h4, h5, h6⟩
  · left
    rw [plain_ownerOf, (hI.var_name h3).2.1, plain_kind h3]
    have := kind_len o
    exact ⟨(kind o).1, (kind o).2, rfl, by omega⟩
  · right
    refine ⟨_, _, plain_shape h3, ?_, h6 (by omega), by dsimp only; omega, by dsimp only; omega⟩
    rw [plain_ownerOf, (ref_name h3).2]

/-- The bytes at `p`. -/
theorem bytes_byte (hI : RInv P w) {p : Ptr} {n : Nat} (h : w.Within p n) {xs : List Byte} (hx : w.Bytes p xs) {i : Nat} (hi : i < xs.length) :
    w.plain.byte (w.plain.ownerOf p.buf) (p.off + i) = some xs[i] := by
  obtain ⟨o, h1, -, h2, -⟩ := Within.owner hI h
  rw [plain_ownerOf, plain_byte h1, ← h2]
  exact hx.2 i hi

theorem Twin.ownerOf (h : Twin w w') (n : Nat) : w.plain.ownerOf n = w'.plain.ownerOf n := by
  have e := congrFun h.shapes n
  unfold Plain.shapes at e
  unfold Plain.ownerOf
  cases h1 : w.plain.refs n <;> cases h2 : w'.plain.refs n <;> rw [h1, h2] at e <;> first | rfl | cases e | skip
  have e := Option.some.inj e
  exact (congrArg Ref.owner e :)

/-- The same is read in both worlds. -/
theorem Twin.reads (h : Twin w w') (hI : RInv P w) {P' : Plat} (hI' : RInv P' w') {p : Ptr} {n : Nat} (hp : w.Inits p n) (hp' : w'.Inits p n) :
    ∃ xs, xs.length = n ∧ w.Bytes p xs ∧ w'.Bytes p xs := by
  obtain ⟨xs, h1, h2⟩ := Inits.reads hI hp
  obtain ⟨ys, h3, h4⟩ := Inits.reads hI' hp'
  have e : xs = ys := List.ext_getElem (h1.trans h3.symm) fun i hi hi' => by
    have e1 := bytes_byte hI (Inits.within hI hp) h2 hi
    have e2 := bytes_byte hI' (Inits.within hI' hp') h4 hi'
    rw [h.bytes _ _ (Inits.known hI hp (by omega) (by omega)), h.ownerOf, e2] at e1
    injection e1 with e1
    exact e1.symm
  exact ⟨xs, h1, h2, by rw [e]; exact h4⟩

/-- What a variable holds is the same in both worlds. -/
theorem Twin.holds (h : Twin w w') {x : Nat} {o : Owned} (hx : w.vars x = some o) : ∃ o', w'.vars x = some o' ∧ kind o = kind o' := by
  have e := congrFun h.kinds x
  rw [plain_kind hx] at e
  cases h' : w'.vars x with
  | none => unfold Plain.kinds at e; rw [show w'.plain.vars x = none by show (w'.vars x).map _ = _; rw [h']; rfl] at e; cases e
  | some o' => rw [plain_kind h'] at e; injection e with e; exact ⟨o', rfl, e⟩

/-! ### Effects -/

/-- Nothing but the references changes; no new bytes can be read. -/
theorem did_same {m : Mem} {refs : Nat → Option Ref} (hm : ∀ x o i, w.plain.vars x = some o → m.cell (Spec.ownerOf o).1.buf i = w.plain.mem.cell (Spec.ownerOf o).1.buf i)
    {R : Nat → Option Ref} (hR : Plain.shapes ⟨m, w.plain.vars, refs⟩ = R) (hk : ∀ y i, Known w.plain.kinds R y i → Known w.plain.kinds w.plain.shapes y i) :
    Did w.plain ⟨m, w.plain.vars, refs⟩ ⟨w.plain.kinds, R, 0, 0, [], id⟩ := by
  refine ⟨rfl, hR, fun y i h => ?_, fun y i h _ => ⟨hk y i h, ?_⟩⟩
  · have := h.2; dsimp only [List.length_nil] at this; omega
  · show (w.plain.vars y).bind _ = (w.plain.vars y).bind _
    cases e : w.plain.vars y with
    | none => rfl
    | some o => exact hm y o i e

/-- Bytes are written through a name. -/
theorem did_patch (hI : RInv P w) {d : Ptr} {n : Nat} (hin : w.Within d n) {m : Mem} {ys : List Byte} {t : Nat} (ht : t ≤ ys.length) (hr : Reads m (w.plain.at' d) ys)
    (hf : ∀ b o, (∀ i, i < t → ¬ (b = (w.plain.at' d).buf ∧ o = (w.plain.at' d).off + i)) → m.cell b o = w.plain.mem.cell b o)
    {refs : Nat → Option Ref} {R : Nat → Option Ref} (hR : Plain.shapes ⟨m, w.plain.vars, refs⟩ = R)
    (hk : ∀ y i, Known w.plain.kinds R y i → Known w.plain.kinds w.plain.shapes y i ∨ y = w.plain.ownerOf d.buf ∧ d.off ≤ i ∧ i < d.off + ys.length) :
    Did w.plain ⟨m, w.plain.vars, refs⟩ ⟨w.plain.kinds, R, w.plain.ownerOf d.buf, d.off, ys, id⟩ := by
  obtain ⟨o, h1, h2⟩ := plain_owner hI hin
  refine ⟨rfl, hR, fun y i h => ?_, fun y i h hn => ⟨(hk y i h).resolve_right hn, ?_⟩⟩
  · obtain ⟨rfl, h3, h4⟩ := h
    dsimp only at h3 h4 ⊢
    show (w.plain.vars _).bind _ = _
    rw [h1, Option.bind_some, ← h2]
    have h5 := hr.2 (i - d.off) (by omega)
    rw [show (w.plain.at' d).off + (i - d.off) = i by show d.off + (i - d.off) = i; omega] at h5
    rw [h5, List.getElem?_eq_getElem]
  · show (w.plain.vars y).bind _ = (w.plain.vars y).bind _
    cases e : w.plain.vars y with
    | none => rfl
    | some o' =>
      refine hf _ _ fun j hj h => hn ?_
      have e1 : y = w.plain.ownerOf d.buf := plain_apart hI e h1 (h.1.trans h2)
      have e2 : i = d.off + j := h.2
      exact ⟨e1, by dsimp only; omega, by dsimp only; omega⟩

/-- A variable gets a value. -/
theorem did_assign (hI : RInv P w) {x : Nat} (hx : w.NotLent x) {m : Mem} {o : Owned} {zs : List Byte} (hl : zs.length = Client.len o) (hr : Reads m ⟨(Spec.ownerOf o).1.buf, 0⟩ zs)
    (hf : ∀ b i, b < w.plain.mem.nbuf → (∀ o, w.plain.vars x = some o → b ≠ (Spec.ownerOf o).1.buf) → m.cell b i = w.plain.mem.cell b i) :
    Did w.plain ⟨m, w.plain.set x (some o), w.plain.refs⟩ ⟨fun y => if y = x then some (kind o) else w.plain.kinds y, w.plain.shapes, x, 0, zs, id⟩ := by
  have hv : ∀ y, y ≠ x → w.plain.set x (some o) y = w.plain.vars y := fun y h => if_neg h
  have hvx : w.plain.set x (some o) x = some o := if_pos rfl
  refine ⟨funext fun y => ?_, rfl, fun y i h => ?_, fun y i h hn => ?_⟩
  · show (w.plain.set x (some o) y).map kind = _
    dsimp only
    split
    · rename_i e; rw [e, hvx]; rfl
    · rename_i e; rw [hv y e]; rfl
  · obtain ⟨rfl, -, h4⟩ := h
    dsimp only at h4 ⊢
    show (w.plain.set y (some o) y).bind _ = _
    rw [hvx, Option.bind_some]
    have h5 := hr.2 i (by omega)
    dsimp only at h5
    rw [Nat.zero_add] at h5
    rw [h5, Nat.sub_zero, List.getElem?_eq_getElem]
  · have hne : y ≠ x := fun e => by
      subst e
      rcases h with ⟨ty, k, h1, h2⟩ | ⟨r, ρ, h1, h2, -⟩
      · dsimp only at h1
        rw [if_pos rfl] at h1
        injection h1 with h1
        have h3 := kind_len o
        rw [h1] at h3
        exact hn ⟨rfl, Nat.zero_le _, by dsimp only at h3 ⊢; omega⟩
      · obtain ⟨ρ0, h3, rfl⟩ := shape_some h1
        exact hx r ρ0 h3 h2
    refine ⟨?_, ?_⟩
    · rcases h with ⟨ty, k, h1, h2⟩ | h
      · dsimp only at h1
        rw [if_neg hne] at h1
        exact .inl ⟨ty, k, h1, h2⟩
      · exact .inr h
    · show (w.plain.set x (some o) y).bind _ = (w.plain.vars y).bind _
      rw [hv y hne]
      cases e : w.plain.vars y with
      | none => rfl
      | some o' => exact hf _ _ (plain_exists hI e) fun o1 h1 e1 => hne (plain_apart hI e h1 e1)

/-- Only what variables hold changes, and no bytes; no new bytes can be read. -/
theorem did_vars {vars : Nat → Option Owned} {V : Nat → Option (EncodeTy × Nat)} (hV : Plain.kinds ⟨w.plain.mem, vars, w.plain.refs⟩ = V) (f : Nat → Nat)
    (hk : ∀ y i, Known V w.plain.shapes y i → Known w.plain.kinds w.plain.shapes (f y) i ∧ (vars y).map (fun o => (Spec.ownerOf o).1.buf) = (w.plain.vars (f y)).map fun o => (Spec.ownerOf o).1.buf) :
    Did w.plain ⟨w.plain.mem, vars, w.plain.refs⟩ ⟨V, w.plain.shapes, 0, 0, [], f⟩ := by
  refine ⟨hV, rfl, fun y i h => ?_, fun y i h _ => ⟨(hk y i h).1, ?_⟩⟩
  · have := h.2; dsimp only [List.length_nil] at this; omega
  · have := (hk y i h).2
    show (vars y).bind _ = (w.plain.vars (f y)).bind _
    cases e : vars y <;> cases e' : w.plain.vars (f y) <;> rw [e, e'] at this <;> first | rfl | cases this | skip
    have this := Option.some.inj this
    dsimp only at this
    show w.plain.mem.cell _ _ = w.plain.mem.cell _ _
    rw [this]

end Simd.Lend
