import Verif.Lemmas.TreeUsePlain
/-
Which steps safe Rust allows does not depend on whether memory has borrow stacks or borrow trees.
-/
namespace Simd.Agree
open Spec
open Client (len IsText)

/-- What the rules of safe Rust look at. -/
structure View where
  vars : Nat → Option Owned
  refs : Nat → Option Lend.Ref
  home : Nat → Nat
  name : Nat → Nat

namespace View

def Covers (v : View) (ρ : Lend.Ref) (b i : Nat) : Prop := In ⟨v.home ρ.tag, ρ.off⟩ ρ.len b i
def spot (v : View) (p : Ptr) : Ptr := ⟨v.home (v.name p.buf), p.off⟩
def Inits (v : View) (p : Ptr) (n : Nat) : Prop :=
  (∃ o, v.vars p.buf = some o ∧ p.off + n ≤ len o) ∨ ∃ ρ, v.refs p.buf = some ρ ∧ ρ.off ≤ p.off ∧ p.off + n ≤ ρ.off + ρ.len ∧ (0 < n → ρ.init = true)
def CanRead (v : View) (p : Ptr) (n : Nat) : Prop :=
  v.Inits p n ∧ ∀ b i, In (v.spot p) n b i → ∀ r ρ, v.refs r = some ρ → v.Covers ρ b i → ρ.excl = true → ρ.tag ≤ v.name p.buf
def CanWrite (v : View) (p : Ptr) (n : Nat) : Prop :=
  ((∃ o, v.vars p.buf = some o ∧ p.off + n ≤ (Spec.ownerOf o).2 ∧ (0 < n → ¬ IsText o)) ∨ ∃ ρ, v.refs p.buf = some ρ ∧ ρ.off ≤ p.off ∧ p.off + n ≤ ρ.off + ρ.len ∧ (0 < n → ρ.excl = true)) ∧
  ∀ b i, In (v.spot p) n b i → ∀ r ρ, v.refs r = some ρ → v.Covers ρ b i → ρ.tag ≤ v.name p.buf
def Unused (v : View) (k : Nat) : Prop := v.vars k = none ∧ v.refs k = none
def NotLent (v : View) (x : Nat) : Prop := ∀ r ρ, v.refs r = some ρ → ρ.owner ≠ x

structure CanCall (v : View) (M : Machine) {α : Type} (c : Call α) (keep : Option Nat) : Prop where
  runs : c.RunsOn M
  shared : v.CanRead c.shared.1 c.shared.2
  excl : v.CanWrite c.exclusive.1 c.exclusive.2
  inplace : Client.InPlace c → v.Inits c.exclusive.1 c.exclusive.2
  apart : NoOverlap (v.spot c.shared.1) c.shared.2 (v.spot c.exclusive.1) c.exclusive.2
  keep : ∀ k, keep = some k → v.Unused k

def Legal (M : Machine) (v : View) : Lend.Op → Prop
  | .new x text bs cap => v.Unused x ∧ bs.length ≤ cap ∧ cap ≤ M.P.isizeMax ∧ (text = true → ValidUtf8 bs)
  | .move x y => (∃ o, v.vars x = some o) ∧ v.NotLent x ∧ v.Unused y
  | .truncate x _ => (∃ o, v.vars x = some (.vec o)) ∧ v.NotLent x
  | .intoBytes x => (∃ o, v.vars x = some o) ∧ v.NotLent x
  | .drop x => (∃ o, v.vars x = some o) ∧ v.NotLent x
  | .borrow k excl init p n => v.Unused k ∧ (init = true → v.Inits p n) ∧ (excl = true → v.CanWrite p n) ∧ (excl = false → v.CanRead p n)
  | .forget k => ∃ ρ, v.refs k = some ρ
  | .read p n => v.CanRead p n
  | .write p bs => v.CanWrite p bs.length
  | .call c keep => v.CanCall M c keep
  | .par _ i config src dst keep => v.CanCall M (.base64Encode i config src dst) keep
  | .heap x c => c.RunsOn M ∧ v.CanRead c.shared.ptr c.shared.len ∧
    match c.vec with
    | none => v.Unused x
    | some u => u.buf = x ∧ c.shared.ptr.buf ≠ x ∧ v.NotLent x ∧ ∃ t, v.vars x = some (.vec ⟨t, u.len, u.cap⟩) ∨ Client.AppendsText c ∧ v.vars x = some (.string ⟨t, u.len, u.cap⟩)
  | .ext c => c.RunsOn M ∧ v.CanRead c.shared.ptr c.shared.len

/-- The name is in use. -/
def Used (v : View) (n : Nat) : Prop := (∃ o, v.vars n = some o) ∨ ∃ ρ, v.refs n = some ρ

end View

/-- Two views that differ only in tags, with the same references made before others. -/
structure Alike (v v' : View) : Prop where
  vars : ∀ x o, v.vars x = some o → ∃ o', v'.vars x = some o' ∧ (Moves.move v.home o : Owned) = Moves.move v'.home o'
  refs : ∀ r ρ, v.refs r = some ρ → ∃ ρ', v'.refs r = some ρ' ∧ ({ ρ with tag := v.home ρ.tag } : Lend.Ref) = { ρ' with tag := v'.home ρ'.tag }
  vars' : ∀ x o, v'.vars x = some o → ∃ o', v.vars x = some o' ∧ (Moves.move v'.home o : Owned) = Moves.move v.home o'
  refs' : ∀ r ρ, v'.refs r = some ρ → ∃ ρ', v.refs r = some ρ' ∧ ({ ρ with tag := v'.home ρ.tag } : Lend.Ref) = { ρ' with tag := v.home ρ'.tag }
  home : ∀ n, v.Used n → v.home (v.name n) = v'.home (v'.name n)
  order : ∀ r ρ ρ' n, v.refs r = some ρ → v'.refs r = some ρ' → v.Used n → v.home ρ.tag = v.home (v.name n) → ρ.tag ≤ v.name n → ρ'.tag ≤ v'.name n

theorem move_same {σ τ : Nat → Nat} {o o' : Owned} (h : (Moves.move σ o : Owned) = Moves.move τ o') :
    len o = len o' ∧ (Spec.ownerOf o).2 = (Spec.ownerOf o').2 ∧ (IsText o' → IsText o) ∧ (∀ t n c, o = .vec ⟨t, n, c⟩ → ∃ t, o' = .vec ⟨t, n, c⟩) ∧ (∀ t n c, o = .string ⟨t, n, c⟩ → ∃ t, o' = .string ⟨t, n, c⟩) := by
  have h1 : ∀ (σ : Nat → Nat) (o : Owned), len (Moves.move σ o) = len o ∧ (Spec.ownerOf (Moves.move σ o)).2 = (Spec.ownerOf o).2 ∧ (IsText (Moves.move σ o) ↔ IsText o) := fun σ o => by
    cases o <;> exact ⟨rfl, rfl, Iff.rfl⟩
  refine ⟨by rw [← (h1 σ o).1, h, (h1 τ o').1], by rw [← (h1 σ o).2.1, h, (h1 τ o').2.1], fun ht => ?_, fun t n c e => ?_, fun t n c e => ?_⟩
  · rw [← (h1 σ o).2.2, h, (h1 τ o').2.2]; exact ht
  · subst e
    cases o' with
    | vec u => obtain ⟨t', n', c'⟩ := u; injection h with h; injection h with _ h2 h3; subst h2 h3; exact ⟨t', rfl⟩
    | _ => cases h
  · subst e
    cases o' with
    | string u => obtain ⟨t', n', c'⟩ := u; injection h with h; injection h with _ h2 h3; subst h2 h3; exact ⟨t', rfl⟩
    | _ => cases h

variable {v v' : View} {M : Machine}

theorem Alike.unused (h : Alike v v') {k : Nat} (hk : v.Unused k) : v'.Unused k := by
  constructor
  · cases e : v'.vars k with
    | none => rfl
    | some o => obtain ⟨o', h1, -⟩ := h.vars' k o e; rw [hk.1] at h1; cases h1
  · cases e : v'.refs k with
    | none => rfl
    | some ρ => obtain ⟨ρ', h1, -⟩ := h.refs' k ρ e; rw [hk.2] at h1; cases h1

theorem ref_same {ρ ρ' : Lend.Ref} {a b : Nat} (h : ({ ρ with tag := a } : Lend.Ref) = { ρ' with tag := b }) :
    a = b ∧ ρ.off = ρ'.off ∧ ρ.len = ρ'.len ∧ ρ.excl = ρ'.excl ∧ ρ.init = ρ'.init ∧ ρ.owner = ρ'.owner := by
  injection h with h1 h2 h3 h4 h5 h6
  exact ⟨h1, h2, h3, h4, h5, h6⟩

theorem Alike.notLent (h : Alike v v') {x : Nat} (hx : v.NotLent x) : v'.NotLent x := fun r ρ hr => by
  obtain ⟨ρ', h1, h2⟩ := h.refs' r ρ hr
  rw [(ref_same h2).2.2.2.2.2]
  exact hx r ρ' h1

theorem Alike.inits (h : Alike v v') {p : Ptr} {n : Nat} (hi : v.Inits p n) : v'.Inits p n := by
  rcases hi with ⟨o, h1, h2⟩ | ⟨ρ, h1, h2, h3, h4⟩
  · obtain ⟨o', g1, g2⟩ := h.vars _ o h1
    exact .inl ⟨o', g1, by rw [← (move_same g2).1]; exact h2⟩
  · obtain ⟨ρ', g1, g2⟩ := h.refs _ ρ h1
    obtain ⟨-, e1, e2, -, e3, -⟩ := ref_same g2
    exact .inr ⟨ρ', g1, by rw [← e1]; exact h2, by rw [← e1, ← e2]; exact h3, by rw [← e3]; exact h4⟩

theorem View.Inits.used {p : Ptr} {n : Nat} (h : v.Inits p n) : v.Used p.buf := by
  rcases h with ⟨o, h1, -⟩ | ⟨ρ, h1, -⟩
  · exact .inl ⟨o, h1⟩
  · exact .inr ⟨ρ, h1⟩

theorem View.CanWrite.used {p : Ptr} {n : Nat} (h : v.CanWrite p n) : v.Used p.buf := by
  rcases h.1 with ⟨o, h1, -⟩ | ⟨ρ, h1, -⟩
  · exact .inl ⟨o, h1⟩
  · exact .inr ⟨ρ, h1⟩

theorem Alike.spot (h : Alike v v') {p : Ptr} (hu : v.Used p.buf) : v'.spot p = v.spot p := by unfold View.spot; rw [h.home _ hu]

/-- A reference that was not made later than a name was not made later in the other view. -/
theorem Alike.le (h : Alike v v') {p : Ptr} {n b i r : Nat} {ρ : Lend.Ref} (hu : v.Used p.buf) (hi : In (v'.spot p) n b i) (hr : v'.refs r = some ρ) (hc : v'.Covers ρ b i)
    (hv : ∀ ρ', v.refs r = some ρ' → v.Covers ρ' b i → ρ'.excl = ρ.excl → ρ'.tag ≤ v.name p.buf) : ρ.tag ≤ v'.name p.buf := by
  obtain ⟨ρ', h1, h2⟩ := h.refs' r ρ hr
  obtain ⟨e0, e1, e2, e3, -⟩ := ref_same h2
  rw [h.spot hu] at hi
  have hc' : v.Covers ρ' b i := by unfold View.Covers at *; rw [← e0, ← e1, ← e2]; exact hc
  exact h.order r ρ' ρ _ h1 hr hu (hc'.1.symm.trans hi.1) (hv ρ' h1 hc' e3.symm)

theorem Alike.canRead (h : Alike v v') {p : Ptr} {n : Nat} (hr : v.CanRead p n) : v'.CanRead p n := by
  refine ⟨h.inits hr.1, fun b i hi r ρ h1 h2 h3 => h.le hr.1.used hi h1 h2 fun ρ' g1 g2 g3 => ?_⟩
  rw [h.spot hr.1.used] at hi
  exact hr.2 b i hi r ρ' g1 g2 (by rw [g3]; exact h3)

theorem Alike.canWrite (h : Alike v v') {p : Ptr} {n : Nat} (hw : v.CanWrite p n) : v'.CanWrite p n := by
  refine ⟨?_, fun b i hi r ρ h1 h2 => h.le hw.used hi h1 h2 fun ρ' g1 g2 _ => ?_⟩
  · rcases hw.1 with ⟨o, h1, h2, h3⟩ | ⟨ρ, h1, h2, h3, h4⟩
    · obtain ⟨o', g1, g2⟩ := h.vars _ o h1
      obtain ⟨-, e1, e2, -⟩ := move_same g2
      exact .inl ⟨o', g1, by rw [← e1]; exact h2, fun hn ht => h3 hn (e2 ht)⟩
    · obtain ⟨ρ', g1, g2⟩ := h.refs _ ρ h1
      obtain ⟨-, e1, e2, e3, -, -⟩ := ref_same g2
      exact .inr ⟨ρ', g1, by rw [← e1]; exact h2, by rw [← e1, ← e2]; exact h3, by rw [← e3]; exact h4⟩
  · rw [h.spot hw.used] at hi
    exact hw.2 b i hi r ρ' g1 g2

theorem Alike.canCall (h : Alike v v') {α : Type} {c : Call α} {keep : Option Nat} (hc : v.CanCall M c keep) : v'.CanCall M c keep :=
  ⟨hc.runs, h.canRead hc.shared, h.canWrite hc.excl, fun hi => h.inits (hc.inplace hi), by rw [h.spot hc.shared.1.used, h.spot hc.excl.used]; exact hc.apart, fun k hk => h.unused (hc.keep k hk)⟩

/-- A step that is allowed in one view is allowed in the other. -/
theorem Alike.legal (h : Alike v v') {op : Lend.Op} (hl : v.Legal M op) : v'.Legal M op := by
  have some' : ∀ {x}, (∃ o, v.vars x = some o) → ∃ o, v'.vars x = some o := fun ⟨o, h1⟩ => by
    obtain ⟨o', h2, -⟩ := h.vars _ o h1; exact ⟨o', h2⟩
  cases op with
  | new x text bs cap => exact ⟨h.unused hl.1, hl.2⟩
  | move x y => exact ⟨some' hl.1, h.notLent hl.2.1, h.unused hl.2.2⟩
  | truncate x n =>
    obtain ⟨⟨⟨t, l, c⟩, h1⟩, h2⟩ := hl
    obtain ⟨o', g1, g2⟩ := h.vars _ _ h1
    obtain ⟨t', rfl⟩ := (move_same g2).2.2.2.1 t l c rfl
    exact ⟨⟨_, g1⟩, h.notLent h2⟩
  | intoBytes x => exact ⟨some' hl.1, h.notLent hl.2⟩
  | drop x => exact ⟨some' hl.1, h.notLent hl.2⟩
  | borrow k excl init p n => exact ⟨h.unused hl.1, fun hi => h.inits (hl.2.1 hi), fun hx => h.canWrite (hl.2.2.1 hx), fun hx => h.canRead (hl.2.2.2 hx)⟩
  | forget k => obtain ⟨ρ, h1⟩ := hl; obtain ⟨ρ', h2, -⟩ := h.refs _ ρ h1; exact ⟨ρ', h2⟩
  | read p n => exact h.canRead hl
  | write p bs => exact h.canWrite hl
  | call c keep => exact h.canCall hl
  | par threads i config src dst keep => exact h.canCall (c := .base64Encode i config src dst) hl
  | ext c => exact ⟨hl.1, h.canRead hl.2⟩
  | heap x c =>
    obtain ⟨h1, h2, h3⟩ := hl
    refine ⟨h1, h.canRead h2, ?_⟩
    cases e : c.vec with
    | none => rw [e] at h3; exact h.unused h3
    | some u =>
      rw [e] at h3
      obtain ⟨g1, g2, g3, t, g4⟩ := h3
      refine ⟨g1, g2, h.notLent g3, ?_⟩
      rcases g4 with g4 | ⟨g4, g5⟩
      · obtain ⟨o', k1, k2⟩ := h.vars _ _ g4
        obtain ⟨t', rfl⟩ := (move_same k2).2.2.2.1 _ _ _ rfl
        exact ⟨t', .inl k1⟩
      · obtain ⟨o', k1, k2⟩ := h.vars _ _ g5
        obtain ⟨t', rfl⟩ := (move_same k2).2.2.2.2 _ _ _ rfl
        exact ⟨t', .inr ⟨g4, k1⟩⟩

/-! ### The two worlds -/

def ofStacks (w : Lend.World) : View := ⟨w.vars, w.refs, w.st.home, w.name⟩
def ofTrees (w : Tree.Use.World) : View := ⟨w.vars, w.refs, w.st.home, w.name⟩

theorem legal_stacks {w : Lend.World} (op : Lend.Op) : Lend.Legal M w op ↔ (ofStacks w).Legal M op := by
  have call : ∀ {α : Type} (c : Call α) keep, w.CanCall M c keep ↔ (ofStacks w).CanCall M c keep := fun c keep =>
    ⟨fun h => ⟨h.runs, h.shared, h.excl, h.inplace, h.apart, h.keep⟩, fun h => ⟨h.runs, h.shared, h.excl, h.inplace, h.apart, h.keep⟩⟩
  cases op with
  | call c keep => exact call c keep
  | par threads i config src dst keep => exact call _ keep
  | _ => exact Iff.rfl

theorem legal_trees {w : Tree.Use.World} (op : Tree.Use.Step) : op.Legal M w ↔ (ofTrees w).Legal M op.op := by
  have call : ∀ {α : Type} (c : Call α) keep, w.CanCall M c keep ↔ (ofTrees w).CanCall M c keep := fun c keep =>
    ⟨fun h => ⟨h.runs, h.shared, h.excl, h.inplace, h.apart, h.keep⟩, fun h => ⟨h.runs, h.shared, h.excl, h.inplace, h.apart, h.keep⟩⟩
  cases op with
  | par threads i config src dst keep => exact call _ keep
  | ext c => exact Iff.rfl
  | one op =>
    cases op with
    | call c keep => exact call c keep
    | _ => exact Iff.rfl

end Simd.Agree
