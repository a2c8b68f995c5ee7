import Verif.Model.Alsw
/-
Weakest preconditions for `Prog`, and the memory lemmas used by every proof.
-/
namespace Simd

variable {α β : Type}

/-- `x` run on `m` ends normally in `Q` or in an `Err` satisfying `E`; no panic, no undefined behaviour. -/
def wp (x : Prog α) (Q : α → Mem → Prop) (E : Mem → Prop) (m : Mem) : Prop :=
  match x.run m with
  | .ok a m' => Q a m'
  | .err m' => E m'
  | .panic => False
  | .ub => False

theorem run_bind (x : Prog α) (f : α → Prog β) (m : Mem) :
    (x >>= f).run m = match x.run m with
      | .ok a m' => (f a).run m'
      | .err m' => .err m'
      | .panic => .panic
      | .ub => .ub := by
  show (Prog.bind x f).run m = _
  induction x generalizing m with
  | pure a => rfl
  | err => rfl
  | panic => rfl
  | ub => rfl
  | load p n k ih =>
    simp only [Prog.bind, Prog.run]
    cases m.read p n with
    | none => rfl
    | some bs => exact ih bs m
  | store p bs k ih =>
    simp only [Prog.bind, Prog.run]
    split
    · exact ih _
    · rfl
  | chk p k ih =>
    simp only [Prog.bind, Prog.run]
    split
    · exact ih _
    · rfl
  | alloc n k ih => exact ih _ _

@[simp] theorem wp_bind {x : Prog α} {f : α → Prog β} {Q E m} :
    wp (x >>= f) Q E m ↔ wp x (fun a m' => wp (f a) Q E m') E m := by
  simp only [wp, run_bind]
  cases x.run m <;> rfl

@[simp] theorem wp_pure {a : α} {Q E m} : wp (pure a) Q E m ↔ Q a m := Iff.rfl
@[simp] theorem wp_pure' {a : α} {Q E m} : wp (Prog.pure a) Q E m ↔ Q a m := Iff.rfl
@[simp] theorem wp_err {Q E m} : wp (Prog.err : Prog α) Q E m ↔ E m := Iff.rfl
@[simp] theorem wp_panic {Q E m} : ¬ wp (Prog.panic : Prog α) Q E m := id
@[simp] theorem wp_ub {Q E m} : ¬ wp (Prog.ub : Prog α) Q E m := id

@[simp] theorem wp_map {x : Prog α} {f : α → β} {Q E m} :
    wp (f <$> x) Q E m ↔ wp x (fun a m' => Q (f a) m') E m := by
  show wp (x >>= fun a => pure (f a)) Q E m ↔ _
  simp

theorem wp_mono {x : Prog α} {Q Q' : α → Mem → Prop} {E E' : Mem → Prop} {m}
    (h : wp x Q E m) (hQ : ∀ a m', Q a m' → Q' a m') (hE : ∀ m', E m' → E' m') : wp x Q' E' m := by
  unfold wp at *
  cases hx : x.run m <;> rw [hx] at h
  · exact hQ _ _ h
  · exact hE _ h
  · exact h
  · exact h

/-- Sequencing with an intermediate assertion. -/
theorem wp_seq {x : Prog α} {f : α → Prog β} {R : α → Mem → Prop} {Q E m} {E' : Mem → Prop}
    (h : wp x R E' m) (hE : ∀ m', E' m' → E m') (hf : ∀ a m', R a m' → wp (f a) Q E m') :
    wp (x >>= f) Q E m :=
  wp_bind.2 (wp_mono h hf hE)

@[simp] theorem wp_ensure {b : Bool} {Q E m} :
    wp (ensure b) Q E m ↔ (if b then Q () m else E m) := by
  cases b <;> simp [ensure]

theorem wp_offset_from {p : Ptr} {n : Nat} {Q E m} : wp (offset_from (p.add n) p) Q E m ↔ Q n m := by
  simp [offset_from, Ptr.add, wp, Prog.run, pure]

@[simp] theorem wp_assert {b : Bool} {Q E m} : wp (assert b) Q E m ↔ b = true ∧ Q () m := by
  cases b <;> simp [assert]

@[simp] theorem wp_liftO_some {a : α} {Q E m} : wp (liftO (some a)) Q E m ↔ Q a m := Iff.rfl
@[simp] theorem wp_liftO_none {Q E m} : ¬ wp (liftO (none : Option α)) Q E m := id

theorem wp_liftO {o : Option α} {Q E m} : wp (liftO o) Q E m ↔ ∃ a, o = some a ∧ Q a m := by
  cases o <;> simp

@[simp] theorem wp_liftR_ok {a : α} {Q E m} : wp (liftR (some (.ok a))) Q E m ↔ Q a m := Iff.rfl
@[simp] theorem wp_liftR_error {u : Unit} {Q E m} : wp (liftR (some (.error u) : Vs.Res α)) Q E m ↔ E m := Iff.rfl
@[simp] theorem wp_liftR_none {Q E m} : ¬ wp (liftR (none : Vs.Res α)) Q E m := id

@[simp] theorem wp_padd {p : Ptr} {n : Nat} {Q E m} :
    wp (padd p n) Q E m ↔ p.off + n ≤ m.size p.buf ∧ Q () m := by
  simp only [wp, padd, Prog.run, Ptr.add]
  by_cases h : p.off + n ≤ m.size p.buf <;> simp [h]

@[simp] theorem wp_psub {p : Ptr} {n : Nat} {Q : Ptr → Mem → Prop} {E m} :
    wp (psub p n) Q E m ↔ n ≤ p.off ∧ Q ⟨p.buf, p.off - n⟩ m := by
  by_cases h : n ≤ p.off <;> simp [psub, h]

theorem wp_loadBytes {p : Ptr} {n : Nat} {Q E m} :
    wp (loadBytes p n) Q E m ↔ ∃ bs, m.read p n = some bs ∧ Q bs m := by
  simp only [wp, loadBytes, Prog.run]
  cases h : m.read p n <;> simp

@[simp] theorem wp_storeBytes {p : Ptr} {bs : List Byte} {Q E m} :
    wp (storeBytes p bs) Q E m ↔ p.off + bs.length ≤ m.size p.buf ∧ Q () (m.write p bs) := by
  simp only [wp, storeBytes, Prog.run]
  by_cases h : p.off + bs.length ≤ m.size p.buf <;> simp [h]

@[simp] theorem wp_wrt {p : Ptr} {i : Nat} {x : Byte} {Q E m} :
    wp (wrt p i x) Q E m ↔ p.off + i + 1 ≤ m.size p.buf ∧ Q () (m.write (p.add i) [x]) := by
  simp only [wp, wrt, Prog.run, Ptr.add, List.length_singleton]
  by_cases h : p.off + i + 1 ≤ m.size p.buf <;> simp [h]

theorem wp_rd {p : Ptr} {i : Nat} {Q : Byte → Mem → Prop} {E m} :
    wp (rd p i) Q E m ↔ ∃ x, p.off + i + 1 ≤ m.size p.buf ∧ m.cell p.buf (p.off + i) = some x ∧ Q x m := by
  simp only [wp, rd, Prog.run, Mem.read, Ptr.add, Mem.readFrom]
  by_cases h : p.off + i + 1 ≤ m.size p.buf
  · simp only [h, if_true, true_and]
    cases hc : m.cell p.buf (p.off + i) <;> simp
  · simp [h]

@[simp] theorem wp_tread {t : List Byte} {i : Nat} {Q E m} :
    wp (tread t i) Q E m ↔ ∃ h : i < t.length, Q t[i] m := by
  unfold tread
  by_cases h : i < t.length
  · simp [h]
  · simp [h]

@[simp] theorem wp_ite {c : Prop} [Decidable c] {x y : Prog α} {Q E m} :
    wp (if c then x else y) Q E m ↔ if c then wp x Q E m else wp y Q E m := by
  split <;> rfl

theorem wp_run_ok {x : Prog α} {Q E m} (h : wp x Q E m) : (∃ a m', x.run m = .ok a m' ∧ Q a m') ∨ ∃ m', x.run m = .err m' ∧ E m' := by
  unfold wp at h
  cases hx : x.run m <;> rw [hx] at h
  · exact .inl ⟨_, _, rfl, h⟩
  · exact .inr ⟨_, rfl, h⟩
  · exact h.elim
  · exact h.elim

/-! ### Memory -/

theorem Mem.ext' {m m' : Mem} (h1 : m.nbuf = m'.nbuf) (h2 : m.size = m'.size)
    (h3 : ∀ b i, m.cell b i = m'.cell b i) : m = m' := by
  cases m; cases m'
  simp only [Mem.mk.injEq] at *
  exact ⟨h1, h2, funext fun b => funext fun i => h3 b i⟩

@[simp] theorem Mem.write_size (m : Mem) (p bs) : (m.write p bs).size = m.size := id rfl
@[simp] theorem Mem.write_nbuf (m : Mem) (p bs) : (m.write p bs).nbuf = m.nbuf := id rfl
theorem Mem.write_cell (m : Mem) (p bs b i) : (m.write p bs).cell b i =
    if b = p.buf ∧ p.off ≤ i ∧ i < p.off + bs.length then bs[i - p.off]? else m.cell b i := rfl

@[simp] theorem Ptr.add_buf (p : Ptr) (n) : (p.add n).buf = p.buf := id rfl
@[simp] theorem Ptr.add_off (p : Ptr) (n) : (p.add n).off = p.off + n := id rfl
@[simp] theorem Ptr.add_zero (p : Ptr) : p.add 0 = p := id rfl
@[simp] theorem Ptr.add_add (p : Ptr) (a b) : (p.add a).add b = p.add (a + b) := by
  simp [Ptr.add, Nat.add_assoc]

@[simp] theorem Mem.write_nil (m : Mem) (p) : m.write p [] = m := by
  apply Mem.ext' <;> simp [Mem.write_cell]
  intro b i _ h1 h2; omega

theorem Mem.write_cell_in {m : Mem} {p : Ptr} {bs : List Byte} {b i : Nat} (hb : b = p.buf) (h1 : p.off ≤ i)
    (h2 : i < p.off + bs.length) : (m.write p bs).cell b i = bs[i - p.off]? := if_pos ⟨hb, h1, h2⟩
theorem Mem.write_cell_out {m : Mem} {p : Ptr} {bs : List Byte} {b i : Nat}
    (h : b ≠ p.buf ∨ i < p.off ∨ p.off + bs.length ≤ i) : (m.write p bs).cell b i = m.cell b i :=
  if_neg fun ⟨h1, h2, h3⟩ => by rcases h with h | h | h <;> omega

/-- The same when junk behind `a` is overwritten completely. -/
theorem Mem.write_append_junk (m : Mem) (p : Ptr) (a j b : List Byte) (h : j.length ≤ b.length) :
    (m.write p (a ++ j)).write (p.add a.length) b = m.write p (a ++ b) := by
  refine Mem.ext' rfl rfl fun b' i => ?_
  by_cases hb : b' = p.buf
  · by_cases h1 : p.off ≤ i
    · by_cases h2 : i < p.off + a.length
      · rw [Mem.write_cell_out (by simp; omega), Mem.write_cell_in hb h1 (by simp; omega),
          Mem.write_cell_in hb h1 (by simp; omega), List.getElem?_append_left (by omega),
          List.getElem?_append_left (by omega)]
      · by_cases h3 : i < p.off + a.length + b.length
        · rw [Mem.write_cell_in (p := p.add a.length) hb (by simp; omega) (by simp; omega),
            Mem.write_cell_in (p := p) hb h1 (by simp; omega), List.getElem?_append_right (by omega)]
          congr 1; simp; omega
        · rw [Mem.write_cell_out (by simp; omega), Mem.write_cell_out (by simp; omega),
            Mem.write_cell_out (by simp; omega)]
    · rw [Mem.write_cell_out (by simp; omega), Mem.write_cell_out (by simp; omega),
        Mem.write_cell_out (by simp; omega)]
  · rw [Mem.write_cell_out (by simp [hb]), Mem.write_cell_out (by simp [hb]), Mem.write_cell_out (by simp [hb])]

/-- Writing `a` then `b` right behind it is writing `a ++ b`. -/
theorem Mem.write_append (m : Mem) (p : Ptr) (a b : List Byte) :
    (m.write p a).write (p.add a.length) b = m.write p (a ++ b) := by
  have := Mem.write_append_junk m p a [] b (by simp)
  simpa using this

theorem Mem.write_append' (m : Mem) (p : Ptr) (a b : List Byte) {n : Nat} (h : a.length = n) :
    (m.write p a).write (p.add n) b = m.write p (a ++ b) := h ▸ Mem.write_append m p a b

/-- The bytes `xs` are readable at `p`. -/
def HasBytes (m : Mem) (p : Ptr) (xs : List Byte) : Prop :=
  p.off + xs.length ≤ m.size p.buf ∧ ∀ i, (h : i < xs.length) → m.cell p.buf (p.off + i) = some xs[i]

/-- `n` bytes at `q` may be written. -/
def CanWrite (m : Mem) (q : Ptr) (n : Nat) : Prop := q.off + n ≤ m.size q.buf

theorem readFrom_of {m : Mem} {b o : Nat} {xs : List Byte}
    (h : ∀ i, (h : i < xs.length) → m.cell b (o + i) = some xs[i]) : m.readFrom b o xs.length = some xs := by
  induction xs generalizing o with
  | nil => rfl
  | cons x xs ih =>
    have h0 := h 0 (by simp)
    have ih := ih (o := o + 1) (fun i hi => by
      have := h (i + 1) (by simpa using hi)
      simpa [Nat.add_assoc, Nat.add_comm 1] using this)
    simp only [List.length_cons, Mem.readFrom, ih]
    simp at h0
    simp [h0]

theorem of_readFrom {m : Mem} {b o n : Nat} {xs : List Byte} (h : m.readFrom b o n = some xs) :
    xs.length = n ∧ ∀ i, (h : i < xs.length) → m.cell b (o + i) = some xs[i] := by
  induction n generalizing o xs with
  | zero => simp [Mem.readFrom] at h; subst h; simp
  | succ n ih =>
    simp only [Mem.readFrom] at h
    split at h
    · rename_i x ys hx hys
      obtain ⟨hl, hc⟩ := ih hys
      simp at h; subst h
      refine ⟨by simp [hl], ?_⟩
      intro i hi
      cases i with
      | zero => simpa using hx
      | succ i =>
        have := hc i (by simpa using hi)
        simpa [Nat.add_assoc, Nat.add_comm 1] using this
    · simp at h

theorem HasBytes.read {m p xs} (h : HasBytes m p xs) : m.read p xs.length = some xs := by
  simp [Mem.read, h.1, readFrom_of h.2]

theorem HasBytes.read' {m p xs n} (h : HasBytes m p xs) (hn : xs.length = n) : m.read p n = some xs := hn ▸ h.read

theorem hasBytes_iff_read {m p xs} : HasBytes m p xs ↔ m.read p xs.length = some xs := by
  constructor
  · exact HasBytes.read
  · intro h
    unfold Mem.read at h
    split at h
    · rename_i hs
      exact ⟨hs, (of_readFrom h).2⟩
    · simp at h

theorem HasBytes.bound {m p xs} (h : HasBytes m p xs) : p.off + xs.length ≤ m.size p.buf := h.1

theorem HasBytes.left {m p xs ys} (h : HasBytes m p (xs ++ ys)) : HasBytes m p xs := by
  refine ⟨?_, fun i hi => ?_⟩
  · have := h.1; simp at this; omega
  · have := h.2 i (by simp; omega)
    rwa [List.getElem_append_left hi] at this

theorem HasBytes.right {m p xs ys} (h : HasBytes m p (xs ++ ys)) : HasBytes m (p.add xs.length) ys := by
  refine ⟨?_, fun i hi => ?_⟩
  · have := h.1; simp at this ⊢; omega
  · have := h.2 (xs.length + i) (by simp; omega)
    rw [List.getElem_append_right (by omega)] at this
    simpa [Nat.add_assoc] using this

theorem HasBytes.append {m p xs ys} (h : HasBytes m p xs) (h' : HasBytes m (p.add xs.length) ys) :
    HasBytes m p (xs ++ ys) := by
  refine ⟨?_, fun i hi => ?_⟩
  · have := h'.1; simp at this ⊢; omega
  · by_cases hx : i < xs.length
    · rw [List.getElem_append_left hx]; exact h.2 i hx
    · rw [List.getElem_append_right (by omega)]
      have := h'.2 (i - xs.length) (by simp at hi; omega)
      simp only [Ptr.add_buf, Ptr.add_off] at this
      rw [← this]; congr 1; omega

theorem HasBytes.take {m p xs} (h : HasBytes m p xs) (k) : HasBytes m p (xs.take k) := by
  rw [← List.take_append_drop k xs] at h; exact h.left

theorem HasBytes.drop {m p xs} (h : HasBytes m p xs) (k) (hk : k ≤ xs.length) : HasBytes m (p.add k) (xs.drop k) := by
  have h' := h
  rw [← List.take_append_drop k xs] at h'
  have := h'.right
  rwa [List.length_take, Nat.min_eq_left hk] at this

theorem HasBytes.get {m p xs} (h : HasBytes m p xs) {i} (hi : i < xs.length) :
    m.cell p.buf (p.off + i) = some xs[i] := h.2 i hi

/-- Writes elsewhere do not disturb readable bytes. -/
theorem HasBytes.write {m p xs} (h : HasBytes m p xs) {q : Ptr} {ys : List Byte}
    (hd : q.buf ≠ p.buf ∨ q.off + ys.length ≤ p.off ∨ p.off + xs.length ≤ q.off) :
    HasBytes (m.write q ys) p xs := by
  refine ⟨h.1, fun i hi => ?_⟩
  rw [Mem.write_cell, if_neg, h.2 i hi]
  rintro ⟨h1, h2, h3⟩
  rcases hd with hd | hd | hd
  · exact hd h1.symm
  · omega
  · omega

theorem hasBytes_write_self {m : Mem} {q : Ptr} {ys : List Byte} (h : q.off + ys.length ≤ m.size q.buf) :
    HasBytes (m.write q ys) q ys := by
  refine ⟨h, fun i hi => ?_⟩
  rw [Mem.write_cell, if_pos ⟨rfl, by omega, by omega⟩, Nat.add_sub_cancel_left, List.getElem?_eq_getElem hi]

@[simp] theorem hasBytes_nil {m p} : HasBytes m p [] ↔ p.off ≤ m.size p.buf := by simp [HasBytes]

theorem wp_rd_of {m p} {xs : List Byte} {i : Nat} {Q : Byte → Mem → Prop} {E}
    (h : HasBytes m p xs) (hi : i < xs.length) (hQ : Q xs[i] m) : wp (rd p i) Q E m :=
  wp_rd.2 ⟨_, by have := h.1; omega, h.2 i hi, hQ⟩

theorem wp_rd_iff {m p} {xs : List Byte} {i : Nat} {Q : Byte → Mem → Prop} {E}
    (h : HasBytes m p xs) (hi : i < xs.length) : wp (rd p i) Q E m ↔ Q xs[i] m := by
  refine ⟨fun hw => ?_, wp_rd_of h hi⟩
  obtain ⟨x, _, hx, hq⟩ := wp_rd.1 hw
  rw [h.2 i hi] at hx; cases hx; exact hq

theorem wp_loadBytes_of {m p} {xs : List Byte} {n : Nat} {Q : List Byte → Mem → Prop} {E}
    (h : HasBytes m p xs) (hn : n ≤ xs.length) (hQ : Q (xs.take n) m) : wp (loadBytes p n) Q E m :=
  wp_loadBytes.2 ⟨_, (h.take n).read' (by simp; omega), hQ⟩

theorem wp_loadBytes_iff {m p} {xs : List Byte} {n : Nat} {Q : List Byte → Mem → Prop} {E}
    (h : HasBytes m p xs) (hl : xs.length = n) : wp (loadBytes p n) Q E m ↔ Q xs m := by
  simp [wp_loadBytes, h.read' hl]

/-- Every initialised cell stays initialised, sizes are equal, and nothing outside `[q, q+n)` changes. -/
structure SameOutside (m m' : Mem) (q : Ptr) (n : Nat) : Prop where
  size : m'.size = m.size
  nbuf : m'.nbuf = m.nbuf
  cell : ∀ b i, ¬ (b = q.buf ∧ q.off ≤ i ∧ i < q.off + n) → m'.cell b i = m.cell b i
  init : ∀ b i, (m.cell b i).isSome → (m'.cell b i).isSome

theorem SameOutside.refl {m q n} : SameOutside m m q n := ⟨rfl, rfl, fun _ _ _ => rfl, fun _ _ h => h⟩

theorem SameOutside.write {m : Mem} {q : Ptr} {n : Nat} {p : Ptr} {ys : List Byte} (hb : p.buf = q.buf)
    (h1 : q.off ≤ p.off) (h2 : p.off + ys.length ≤ q.off + n) : SameOutside m (m.write p ys) q n := by
  refine ⟨rfl, rfl, fun b i h => ?_, fun b i h => ?_⟩
  · rw [Mem.write_cell, if_neg]; rintro ⟨a1, a2, a3⟩; exact h ⟨a1.trans hb, by omega, by omega⟩
  · rw [Mem.write_cell]
    split
    · rename_i hc
      rw [List.getElem?_eq_getElem (by omega)]; rfl
    · exact h

theorem SameOutside.trans {m m' m'' q n} (h : SameOutside m m' q n) (h' : SameOutside m' m'' q n) :
    SameOutside m m'' q n :=
  ⟨h'.size.trans h.size, h'.nbuf.trans h.nbuf, fun b i hc => (h'.cell b i hc).trans (h.cell b i hc),
    fun b i hi => h'.init b i (h.init b i hi)⟩

theorem SameOutside.mono {m m' q n p k} (h : SameOutside m m' p k) (hb : p.buf = q.buf)
    (h1 : q.off ≤ p.off) (h2 : p.off + k ≤ q.off + n) : SameOutside m m' q n :=
  ⟨h.size, h.nbuf, fun b i hc => h.cell b i (fun ⟨a1, a2, a3⟩ => hc ⟨a1.trans hb, by omega, by omega⟩), h.init⟩

theorem SameOutside.after_write {m m' : Mem} {q : Ptr} {n : Nat} {p r : Ptr} {ys : List Byte} {k : Nat}
    (h : SameOutside (m.write p ys) m' r k) (hpb : p.buf = q.buf)
    (h1 : q.off ≤ p.off) (h2 : p.off + ys.length ≤ q.off + n) (hrb : r.buf = q.buf)
    (h3 : q.off ≤ r.off) (h4 : r.off + k ≤ q.off + n) : SameOutside m m' q n :=
  (SameOutside.write hpb h1 h2).trans (h.mono hrb h3 h4)

end Simd
