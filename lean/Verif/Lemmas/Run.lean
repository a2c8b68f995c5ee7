import Verif.Lemmas.Blocks
import Verif.Model.Heap
/-
From `wp` facts to outcomes of whole runs on concrete memories.
-/
namespace Simd

variable {α β : Type}

/-! ### `Mem.ofBufs` -/

theorem ofBufs_size {bufs : List (List Cell)} {b l} (h : bufs[b]? = some l) : (Mem.ofBufs bufs).size b = l.length := by
  simp [Mem.ofBufs, List.getD_eq_getElem?_getD, h]

theorem ofBufs_cell {bufs : List (List Cell)} {b l} (h : bufs[b]? = some l) (i) : (Mem.ofBufs bufs).cell b i = l[i]?.join := by
  simp [Mem.ofBufs, List.getD_eq_getElem?_getD, h]

theorem hasBytes_ofBufs {bufs : List (List Cell)} {b xs rest} (h : bufs[b]? = some (xs.map some ++ rest)) :
    HasBytes (Mem.ofBufs bufs) ⟨b, 0⟩ xs := by
  refine ⟨by simp only [ofBufs_size h]; simp, fun i hi => ?_⟩
  simp only [ofBufs_cell h, Nat.zero_add]
  rw [List.getElem?_append_left (by simpa using hi), List.getElem?_map, List.getElem?_eq_getElem hi]; rfl

theorem hasBytes_ofBufs' {bufs : List (List Cell)} {b xs} (h : bufs[b]? = some (xs.map some)) :
    HasBytes (Mem.ofBufs bufs) ⟨b, 0⟩ xs := hasBytes_ofBufs (rest := []) (by simpa using h)

theorem ofBufs_ext {m : Mem} {bufs : List (List Cell)} (h1 : m.nbuf = bufs.length)
    (h2 : ∀ b, m.size b = (bufs.getD b []).length) (h3 : ∀ b i, m.cell b i = ((bufs.getD b [])[i]?).join) : m = Mem.ofBufs bufs :=
  Mem.ext' h1 (funext h2) h3

theorem ofBufs_write {bufs : List (List Cell)} {b l} (h : bufs[b]? = some l) {o : Nat} {ys : List Byte} (ho : o + ys.length ≤ l.length) :
    (Mem.ofBufs bufs).write ⟨b, o⟩ ys = Mem.ofBufs (bufs.set b (l.take o ++ ys.map some ++ l.drop (o + ys.length))) := by
  have hb : b < bufs.length := by
    by_contra hc; rw [List.getElem?_eq_none (by omega)] at h; cases h
  refine ofBufs_ext (by simp [Mem.ofBufs]) (fun b' => ?_) (fun b' i => ?_)
  · rw [Mem.write_size]
    simp only [Mem.ofBufs, List.getD_eq_getElem?_getD]
    by_cases hbb : b' = b
    · subst hbb
      rw [List.getElem?_set_self hb, h]; simp; omega
    · rw [List.getElem?_set_ne (Ne.symm hbb)]
  · rw [Mem.write_cell]
    simp only [Mem.ofBufs, List.getD_eq_getElem?_getD]
    by_cases hbb : b' = b
    · subst hbb
      rw [List.getElem?_set_self hb, h]
      simp only [Option.getD_some, true_and]
      split
      · rename_i hi
        rw [List.append_assoc, List.getElem?_append_right (by simp; omega), List.getElem?_append_left (by simp; omega), List.getElem?_map]
        simp only [List.length_take, Nat.min_eq_left (show o ≤ l.length by omega)]
        cases ys[i - o]? <;> rfl
      · rename_i hi
        by_cases hio : i < o
        · rw [List.append_assoc, List.getElem?_append_left (by simp; omega), List.getElem?_take_of_lt hio]
        · rw [List.getElem?_append_right (by simp; omega), List.getElem?_drop]
          simp only [List.length_append, List.length_take, List.length_map, Nat.min_eq_left (show o ≤ l.length by omega)]
          rw [show o + ys.length + (i - (o + ys.length)) = i by omega]
    · rw [if_neg (by simp [hbb]), List.getElem?_set_ne (Ne.symm hbb)]

/-- The cells of a region may have changed, nothing else. -/
theorem sameOutside_ofBufs {bufs : List (List Cell)} {m' : Mem} {b n : Nat} {l : List Cell}
    (h : SameOutside (Mem.ofBufs bufs) m' ⟨b, 0⟩ n) (hb : bufs[b]? = some l) (hn : n ≤ l.length) :
    ∃ l', m' = Mem.ofBufs (bufs.set b l') ∧ l'.length = l.length ∧ l'.drop n = l.drop n ∧ (∀ xs : List Byte, l = xs.map some → ∃ xs' : List Byte, l' = xs'.map some) := by
  have hbl : b < bufs.length := by
    by_contra hc; rw [List.getElem?_eq_none (by omega)] at hb; cases hb
  have hsz : ∀ b', m'.size b' = (Mem.ofBufs bufs).size b' := fun b' => by rw [h.size]
  have hl : (List.range l.length).map (m'.cell b) = List.map (m'.cell b) (List.range l.length) := rfl
  refine ⟨(List.range l.length).map (m'.cell b), ?_, by simp, ?_, ?_⟩
  · refine ofBufs_ext (by rw [h.nbuf]; simp [Mem.ofBufs]) (fun b' => ?_) (fun b' i => ?_)
    · rw [hsz]
      by_cases hbb : b' = b
      · subst hbb
        rw [ofBufs_size hb]; simp [List.getD_eq_getElem?_getD, List.getElem?_set_self hbl]
      · simp only [Mem.ofBufs, List.getD_eq_getElem?_getD]; rw [List.getElem?_set_ne (Ne.symm hbb)]
    · by_cases hbb : b' = b
      · subst hbb
        rw [List.getD_eq_getElem?_getD, List.getElem?_set_self hbl, Option.getD_some, List.getElem?_map]
        by_cases hi : i < l.length
        · rw [List.getElem?_range hi]; rfl
        · rw [List.getElem?_eq_none (by simp; omega), h.cell b' i (by simp; omega), ofBufs_cell hb, List.getElem?_eq_none (by omega)]; rfl
      · rw [h.cell b' i (by simp [hbb])]
        simp only [Mem.ofBufs, List.getD_eq_getElem?_getD]; rw [List.getElem?_set_ne (Ne.symm hbb)]
  · apply List.ext_getElem? 
    intro i
    rw [List.getElem?_drop, List.getElem?_drop, List.getElem?_map]
    by_cases hi : n + i < l.length
    · rw [List.getElem?_range hi, List.getElem?_eq_getElem hi]
      simp only [Option.map_some]
      rw [h.cell b (n + i) (by simp), ofBufs_cell hb, List.getElem?_eq_getElem hi]; rfl
    · rw [List.getElem?_eq_none (by simp; omega), List.getElem?_eq_none (by omega)]; rfl
  · rintro xs rfl
    have hall : ∀ i, i < xs.length → ∃ x, m'.cell b i = some x := by
      intro i hi
      have := h.init b i (by rw [ofBufs_cell hb, List.getElem?_map, List.getElem?_eq_getElem hi]; rfl)
      exact Option.isSome_iff_exists.1 this
    refine ⟨(List.range xs.length).map fun i => (m'.cell b i).getD 0, ?_⟩
    rw [List.map_map, List.length_map]
    apply List.map_congr_left
    intro i hi
    obtain ⟨x, hx⟩ := hall i (List.mem_range.1 hi)
    simp [hx]

theorem ofBufs_alloc (bufs : List (List Cell)) (n) : (Mem.ofBufs bufs).alloc n = Mem.ofBufs (bufs ++ [List.replicate n none]) := by
  refine ofBufs_ext (by simp [Mem.ofBufs, Mem.alloc]) (fun b => ?_) (fun b i => ?_)
  · simp only [Mem.ofBufs, Mem.alloc, List.getD_eq_getElem?_getD]
    split
    · rename_i h; subst h; simp
    · rename_i h
      by_cases hb : b < bufs.length
      · rw [List.getElem?_append_left hb]
      · rw [List.getElem?_eq_none (by omega), List.getElem?_eq_none (by simp; omega)]
  · simp only [Mem.ofBufs, Mem.alloc, List.getD_eq_getElem?_getD]
    split
    · rename_i h; subst h
      simp only [List.getElem?_append_right (Nat.le_refl _), Nat.sub_self, List.getElem?_cons_zero, Option.getD_some, List.getElem?_replicate]
      split <;> rfl
    · rename_i h
      by_cases hb : b < bufs.length
      · rw [List.getElem?_append_left hb]
      · rw [List.getElem?_eq_none (l := bufs) (by omega), List.getElem?_eq_none (l := bufs ++ _) (by simp; omega)]

theorem HasBytes.view {m : Mem} {p : Ptr} {xs : List Byte} (h : HasBytes m p xs) : m.view ⟨p, xs.length⟩ = xs.map some := by
  unfold Mem.view
  apply List.ext_getElem (by simp)
  intro i h1 h2
  simp at h1
  simp [h.get h1]

/-! ### Outcomes -/

theorem wp_out {x : Prog α} {Q : α → Mem → Prop} {E : Mem → Prop} {m} (h : wp x Q E m) :
    (∃ a m', x.run m = .ok a m' ∧ Q a m') ∨ (∃ m', x.run m = .err m' ∧ E m') := by
  unfold wp at h
  split at h
  · rename_i a m' he; exact .inl ⟨a, m', he, h⟩
  · rename_i m' he; exact .inr ⟨m', he, h⟩
  · exact h.elim
  · exact h.elim

theorem Does.ok {x : Prog α} {r spec xs q n m ys} (h : Does x r spec xs q n m) (hs : spec xs = some ys) :
    ys.length = n ∧ x.run m = .ok r (m.write q ys) := by
  rcases wp_out h with ⟨a, m', hr, rfl, zs, hz, hl, rfl⟩ | ⟨m', hr, hn, _⟩
  · rw [hs] at hz; cases hz; exact ⟨hl, hr⟩
  · rw [hs] at hn; cases hn

theorem Does.err {x : Prog α} {r spec xs q n m} (h : Does x r spec xs q n m) (hs : spec xs = none) :
    ∃ m', x.run m = .err m' ∧ SameOutside m m' q n := by
  rcases wp_out h with ⟨a, m', hr, rfl, zs, hz, hl, rfl⟩ | ⟨m', hr, hn, hso⟩
  · rw [hs] at hz; cases hz
  · exact ⟨m', hr, hso⟩

theorem Does.ret {x : Prog α} {r spec xs q n m} (h : Does x r spec xs q n m) {f : α → β} : Does (do return f (← x)) (f r) spec xs q n m := by
  unfold Does at h ⊢
  rw [wp_bind]
  refine wp_mono h ?_ fun m' h => h
  rintro a m' ⟨rfl, h'⟩
  exact ⟨rfl, h'⟩

theorem Does.ensure {x : Unit → Prog α} {r spec xs q n m b} (hb : b = true) (h : Does (x ()) r spec xs q n m) :
    Does (Simd.ensure b >>= x) r spec xs q n m := by
  unfold Does at h ⊢
  rw [wp_bind, wp_ensure, if_pos hb]; exact h

theorem run_ensure_false {x : Unit → Prog α} {b m} (hb : b = false) : (Simd.ensure b >>= x).run m = .err m := by
  subst hb; rfl

/-- Copying functions: `src` is buffer 0, `dst` is buffer 1. -/
theorem Does.copy_ok {x : Prog α} {r spec xs n ys ds} (h : Does x r spec xs ⟨1, 0⟩ n (Mem.ofBufs [xs.map some, ds])) (hn : n ≤ ds.length)
    (hs : spec xs = some ys) : ys.length = n ∧ x.run (Mem.ofBufs [xs.map some, ds]) = .ok r (Mem.ofBufs [xs.map some, ys.map some ++ ds.drop n]) := by
  obtain ⟨hl, hr⟩ := h.ok hs
  refine ⟨hl, ?_⟩
  rw [hr, ofBufs_write (l := ds) rfl (by omega)]
  simp [hl]

theorem Does.copy_err {x : Prog α} {r spec xs n ds} (h : Does x r spec xs ⟨1, 0⟩ n (Mem.ofBufs [xs.map some, ds])) (hn : n ≤ ds.length)
    (hs : spec xs = none) : ∃ ds', x.run (Mem.ofBufs [xs.map some, ds]) = .err (Mem.ofBufs [xs.map some, ds']) ∧ ds'.length = ds.length ∧
      ds'.drop n = ds.drop n := by
  obtain ⟨m', hr, hso⟩ := h.err hs
  obtain ⟨l', rfl, h1, h2, -⟩ := sameOutside_ofBufs hso (l := ds) rfl hn
  exact ⟨l', by rw [hr]; rfl, h1, h2⟩

/-- In-place functions: the data are buffer 0. -/
theorem Does.inplace_ok {x : Prog α} {r spec xs n ys} (h : Does x r spec xs ⟨0, 0⟩ n (Mem.ofBufs [xs.map some])) (hn : n ≤ xs.length)
    (hs : spec xs = some ys) : ys.length = n ∧ x.run (Mem.ofBufs [xs.map some]) = .ok r (Mem.ofBufs [(ys ++ xs.drop n).map some]) := by
  obtain ⟨hl, hr⟩ := h.ok hs
  refine ⟨hl, ?_⟩
  rw [hr, ofBufs_write (l := xs.map some) rfl (by simp; omega)]
  simp [hl]

theorem Does.inplace_err {x : Prog α} {r spec xs n} (h : Does x r spec xs ⟨0, 0⟩ n (Mem.ofBufs [xs.map some])) (hn : n ≤ xs.length)
    (hs : spec xs = none) : ∃ xs' : List Byte, x.run (Mem.ofBufs [xs.map some]) = .err (Mem.ofBufs [xs'.map some]) ∧ xs'.length = xs.length ∧
      xs'.drop n = xs.drop n := by
  obtain ⟨m', hr, hso⟩ := h.err hs
  obtain ⟨l', rfl, h1, h2, h3⟩ := sameOutside_ofBufs hso (l := xs.map some) rfl (by simpa using hn)
  obtain ⟨xs', rfl⟩ := h3 xs rfl
  refine ⟨xs', by rw [hr]; rfl, by simpa using h1, ?_⟩
  rw [← List.map_drop, ← List.map_drop] at h2
  exact List.map_inj_right (fun _ _ h => Option.some.inj h) |>.1 h2

/-- Read-only functions. -/
theorem Checks.run_ok {x : Prog α} {r good xs m} (h : Checks x r good xs m) (hg : good xs = true) : x.run m = .ok r m := by
  rcases wp_out h with ⟨a, m', hr, rfl, _, rfl⟩ | ⟨m', hr, hn, rfl⟩
  · exact hr
  · rw [hg] at hn; cases hn
theorem Checks.run_err {x : Prog α} {r good xs m} (h : Checks x r good xs m) (hg : good xs = false) : x.run m = .err m := by
  rcases wp_out h with ⟨a, m', hr, rfl, hn, rfl⟩ | ⟨m', hr, hn, rfl⟩
  · rw [hg] at hn; cases hn
  · exact hr

/-! ### Owned results -/

theorem wp_alloc {n} {k : Nat → Prog α} {Q : α → Mem → Prop} {E m} : wp (.alloc n k) Q E m ↔ wp (k m.nbuf) Q E (m.alloc n) := Iff.rfl

/-- A freshly allocated box filled by `body`. -/
theorem boxed_run {P : Plat} {spec : List Byte → Option (List Byte)} {xs : List Byte} {n : Nat} {body : Ptr → Prog Unit} (h0 : 0 < n) (h1 : n ≤ P.isizeMax)
    (hbody : ∀ m q, HasBytes m ⟨0, 0⟩ xs → CanWrite m q n → (⟨0, 0⟩ : Ptr).buf ≠ q.buf → Does (body q) () spec xs q n m) :
    let x := (do let buf ← alloc_uninit_bytes P n; body buf.ptr; assume_init buf)
    (∀ ys, spec xs = some ys → ys.length = n ∧ x.run (Mem.ofBufs [xs.map some]) = .ok ⟨⟨1, 0⟩, n⟩ (Mem.ofBufs [xs.map some, ys.map some])) ∧
    (spec xs = none → ∃ ds, x.run (Mem.ofBufs [xs.map some]) = .err (Mem.ofBufs [xs.map some, ds])) := by
  intro x
  have hd := hbody (Mem.ofBufs [xs.map some, List.replicate n none]) ⟨1, 0⟩ (hasBytes_ofBufs' rfl) (by
    unfold CanWrite; rw [ofBufs_size (l := List.replicate n none) rfl]; simp) (by simp)
  have e1 : x.run (Mem.ofBufs [xs.map some]) =
      (do body ⟨1, 0⟩; assume_init ⟨⟨1, 0⟩, n⟩ : Prog Slice).run (Mem.ofBufs [xs.map some, List.replicate n none]) := by
    show (do let buf ← alloc_uninit_bytes P n; body buf.ptr; assume_init buf : Prog Slice).run _ = _
    rw [show alloc_uninit_bytes P n = .alloc n fun b => .pure ⟨⟨b, 0⟩, n⟩ by rw [alloc_uninit_bytes, if_pos ⟨h0, h1⟩]]
    show (Prog.run _ ((Mem.ofBufs [xs.map some]).alloc n)) = _
    rw [ofBufs_alloc]; rfl
  constructor
  · intro ys hs
    obtain ⟨hl, hr⟩ := hd.copy_ok (by simp) hs
    refine ⟨hl, ?_⟩
    rw [e1, run_bind, hr]
    have hb : HasBytes (Mem.ofBufs [xs.map some, ys.map some]) ⟨1, 0⟩ ys := hasBytes_ofBufs' rfl
    simp only [List.drop_replicate, Nat.sub_self, List.replicate_zero, List.append_nil, assume_init]
    show Prog.run (loadBytes _ _ >>= _) _ = _
    simp only [loadBytes, run_bind, Prog.run, hb.read' hl]; rfl
  · intro hs
    obtain ⟨ds', hr, -, -⟩ := hd.copy_err (by simp) hs
    exact ⟨ds', by rw [e1, run_bind, hr]⟩

/-- Facts about a vector `v` whose contents are `prev`. -/
structure VecIs (m : Mem) (v : RVec) (prev : List Byte) : Prop where
  bytes : HasBytes m ⟨v.buf, 0⟩ prev
  len : v.len = prev.length
  cap : v.cap = m.size v.buf
  alive : v.buf < m.nbuf

theorem VecIs.view {m v prev} (h : VecIs m v prev) : m.view v.slice = prev.map some := by
  have := h.bytes.view
  rwa [← h.len] at this

/-- `reserve_exact`. -/
theorem reserve_exact_wp {P : Plat} {extra n : Nat} {v : RVec} {prev : List Byte} {m : Mem} {Q : RVec → Mem → Prop} {E} (hv : VecIs m v prev)
    (hcap : n ≤ v.cap - v.len ∨ v.len + n + extra ≤ P.isizeMax)
    (h : ∀ v' m', VecIs m' v' prev → prev.length + n ≤ v'.cap → (v'.buf = v.buf ∨ m.nbuf ≤ v'.buf) →
      (∀ p xs, p.buf < m.nbuf → HasBytes m p xs → HasBytes m' p xs) → Q v' m') :
    wp (v.reserve_exact P extra n) Q E m := by
  have hl := hv.len
  have hcp := hv.cap
  have hb := hv.bytes.bound
  unfold RVec.reserve_exact
  split
  · rename_i hc
    exact h v m hv (by simp at hb; omega) (.inl rfl) fun _ _ _ hp => hp
  · rename_i hc
    rw [if_pos (hcap.resolve_left hc), wp_bind, wp_loadBytes_iff hv.bytes hl.symm, wp_alloc]
    simp only [wp_bind, wp_storeBytes]
    have hsz : (m.alloc (v.len + n + extra)).size m.nbuf = v.len + n + extra := by simp [Mem.alloc]
    have key : ∀ p xs, p.buf < m.nbuf → HasBytes m p xs → HasBytes ((m.alloc (v.len + n + extra)).write ⟨m.nbuf, 0⟩ prev) p xs := by
      intro p xs hpb hp
      have : HasBytes (m.alloc (v.len + n + extra)) p xs := by
        refine ⟨?_, fun i hi => ?_⟩
        · have := hp.bound
          simp only [Mem.alloc, if_neg (show ¬ p.buf = m.nbuf by omega)]; exact this
        · simp only [Mem.alloc, if_neg (show ¬ p.buf = m.nbuf by omega)]; exact hp.get hi
      exact this.write (.inl (by simp; omega))
    refine ⟨by simp only [hsz]; omega, ?_⟩
    refine h _ _ ⟨hasBytes_write_self (by simp only [hsz]; omega), hl, by simp only [Mem.write_size, hsz], ?_⟩ (by simp; omega) (.inr (Nat.le_refl _)) key
    simp [Mem.write, Mem.alloc]

theorem set_len_wp {v : RVec} {n} {m : Mem} {xs : List Byte} {Q : RVec → Mem → Prop} {E} (hx : HasBytes m ⟨v.buf, 0⟩ xs) (hl : xs.length = n) (hc : n ≤ v.cap)
    (h : Q { v with len := n } m) : wp (v.set_len n) Q E m := by
  unfold RVec.set_len
  rw [if_pos hc, wp_bind, wp_loadBytes_iff hx hl]; exact h

theorem prog_pure_bind (a : α) (f : α → Prog β) : (pure a >>= f) = f a := rfl

theorem run_attempt (x : Prog α) (m : Mem) : x.attempt.run m = match x.run m with
    | .ok a m' => .ok (some a) m'
    | .err m' => .ok none m'
    | .panic => .panic
    | .ub => .ub := by
  induction x generalizing m with
  | pure a => rfl
  | err => rfl
  | panic => rfl
  | ub => rfl
  | load p n k ih =>
    simp only [Prog.attempt, Prog.run]
    cases m.read p n with
    | none => rfl
    | some bs => exact ih bs m
  | store p bs k ih =>
    simp only [Prog.attempt, Prog.run]
    split
    · exact ih _
    · rfl
  | chk p k ih =>
    simp only [Prog.attempt, Prog.run]
    split
    · exact ih _
    · rfl
  | alloc n k ih => exact ih _ _

theorem wp_attempt {x : Prog α} {Q : Option α → Mem → Prop} {E m} :
    wp x.attempt Q E m ↔ wp x (fun a m' => Q (some a) m') (fun m' => Q none m') m := by
  unfold wp
  rw [run_attempt]
  cases x.run m <;> rfl

theorem wp_addU {P : Plat} {a b : Nat} {Q : Nat → Mem → Prop} {E m} (h : a + b ≤ P.usizeMax) : wp (liftO (P.addU a b)) Q E m ↔ Q (a + b) m := by
  rw [Plat.addU, if_pos h, wp_liftO_some]
theorem wp_mulU {P : Plat} {a b : Nat} {Q : Nat → Mem → Prop} {E m} (h : a * b ≤ P.usizeMax) : wp (liftO (P.mulU a b)) Q E m ↔ Q (a * b) m := by
  rw [Plat.mulU, if_pos h, wp_liftO_some]

theorem isizeMax_le (P : Plat) : 2 * P.isizeMax + 1 = P.usizeMax := by
  unfold Plat.isizeMax Plat.usizeMax
  have h := P.hbits
  obtain ⟨k, hk⟩ : ∃ k, P.bits = k + 1 := ⟨P.bits - 1, by omega⟩
  rw [hk, Nat.add_sub_cancel, Nat.pow_succ]
  have := Nat.two_pow_pos k
  omega

/-- The common shape of the appending functions: reserve, fill the spare capacity, commit the length. -/
theorem append_wp {P : Plat} {extra n : Nat} {v : RVec} {prev xs : List Byte} {spec : List Byte → Option (List Byte)} {m : Mem} {body : Ptr → Prog Unit}
    (hv : VecIs m v prev) (hx : HasBytes m ⟨0, 0⟩ xs) (h0 : v.buf ≠ 0) (hm : 0 < m.nbuf)
    (hcap : n ≤ v.cap - v.len ∨ v.len + n + extra ≤ P.isizeMax) (hcap' : v.cap ≤ P.isizeMax)
    (hbody : ∀ m q, HasBytes m ⟨0, 0⟩ xs → CanWrite m q n → (⟨0, 0⟩ : Ptr).buf ≠ q.buf → Does (body q) () spec xs q n m)
    {Q : RVec × Except Unit Unit → Mem → Prop} {E}
    (hok : ∀ v' m' ys, spec xs = some ys → VecIs m' v' (prev ++ ys) → HasBytes m' ⟨0, 0⟩ xs → Q (v', .ok ()) m')
    (herr : ∀ v' m', spec xs = none → VecIs m' v' prev → HasBytes m' ⟨0, 0⟩ xs → Q (v', .error ()) m') :
    wp (do
      let buf ← v.reserve_exact P extra n
      padd ⟨buf.buf, 0⟩ buf.len
      match ← (body ⟨buf.buf, buf.len⟩).attempt with
      | none => pure (buf, .error ())
      | some _ =>
        let buf ← buf.set_len (← liftO (P.addU buf.len n))
        pure (buf, .ok ())) Q E m := by
  rw [wp_bind]
  refine reserve_exact_wp (n := n) hv hcap ?_
  intro v' m' hv' hc' hb' hkeep
  have hx' := hkeep _ _ hm hx
  have hl := hv'.len
  have hcp := hv'.cap
  have hne : (⟨0, 0⟩ : Ptr).buf ≠ v'.buf := by
    simp only
    rcases hb' with hb' | hb'
    · rw [hb']; exact Ne.symm h0
    · omega
  rw [wp_bind, wp_padd, wp_bind, wp_attempt]
  refine ⟨by simp only; omega, ?_⟩
  refine wp_mono (hbody m' ⟨v'.buf, v'.len⟩ hx' (by unfold CanWrite; simp only; omega) hne) ?_ ?_
  · rintro _ m'' ⟨-, ys, hy, hyl, rfl⟩
    have hmax : v'.len + n ≤ P.usizeMax := by
      have := isizeMax_le P
      rcases hcap with h | h
      · have h1 := hv.len
        have h2 := hv.cap
        have h3 := hv.bytes.bound
        simp only [Nat.zero_add] at h3
        omega
      · have h1 := hv.len
        omega
    have hnew : HasBytes (m'.write ⟨v'.buf, v'.len⟩ ys) ⟨v'.buf, 0⟩ (prev ++ ys) := by
      refine HasBytes.append (hv'.bytes.write (.inr (.inr (by simp only; omega)))) ?_
      rw [hl]
      have := hasBytes_write_self (m := m') (q := ⟨v'.buf, prev.length⟩) (ys := ys) (by show _ ≤ m'.size v'.buf; simp only; omega)
      rw [Ptr.add]; simpa using this
    have hx'' : HasBytes (m'.write ⟨v'.buf, v'.len⟩ ys) ⟨0, 0⟩ xs := hx'.write (.inl (Ne.symm hne))
    simp only [wp_bind, wp_addU hmax]
    refine set_len_wp hnew (by simp; omega) (by omega) ?_
    exact hok _ _ ys hy ⟨hnew, by simp; omega, hcp, hv'.alive⟩ hx''
  · rintro m'' ⟨hn, hso⟩
    have keep : ∀ p zs, HasBytes m' p zs → (p.buf ≠ v'.buf ∨ p.off + zs.length ≤ v'.len) → HasBytes m'' p zs := by
      intro p zs hz hp
      refine ⟨by rw [hso.size]; exact hz.bound, fun i hi => ?_⟩
      rw [hso.cell _ _ (by
        rintro ⟨h1, h2, h3⟩
        simp only at h1 h2
        rcases hp with hp | hp
        · exact hp h1
        · omega), hz.get hi]
    exact herr _ _ hn ⟨keep _ _ hv'.bytes (.inr (by simp only; omega)), hl, by rw [hso.size]; exact hcp, by rw [hso.nbuf]; exact hv'.alive⟩ (keep _ _ hx' (.inl hne))

/-- The same without a failure path. -/
theorem append_total_wp {P : Plat} {extra n : Nat} {v : RVec} {prev xs ys : List Byte} {m : Mem} {body : Ptr → Prog Unit}
    (hv : VecIs m v prev) (hx : HasBytes m ⟨0, 0⟩ xs) (h0 : v.buf ≠ 0) (hm : 0 < m.nbuf)
    (hcap : n ≤ v.cap - v.len ∨ v.len + n + extra ≤ P.isizeMax) (hcap' : v.cap ≤ P.isizeMax) {spec : List Byte → Option (List Byte)} (hs : spec xs = some ys)
    (hbody : ∀ m q, HasBytes m ⟨0, 0⟩ xs → CanWrite m q n → (⟨0, 0⟩ : Ptr).buf ≠ q.buf → Does (body q) () spec xs q n m)
    {Q : RVec → Mem → Prop} {E}
    (hok : ∀ v' m', VecIs m' v' (prev ++ ys) → HasBytes m' ⟨0, 0⟩ xs → Q v' m') :
    wp (do
      let buf ← v.reserve_exact P extra n
      padd ⟨buf.buf, 0⟩ buf.len
      body ⟨buf.buf, buf.len⟩
      buf.set_len (← liftO (P.addU buf.len n))) Q E m := by
  have h := append_wp (Q := fun r m' => ∃ v', r = (v', .ok ()) ∧ Q v' m') (E := E) hv hx h0 hm hcap hcap' hbody
    (fun v' m' zs hz h1 h2 => ⟨v', rfl, hok v' m' (by rw [hs] at hz; cases hz; exact h1) h2⟩)
    (fun v' m' hn => by rw [hs] at hn; cases hn)
  simp only [wp_bind, wp_attempt] at h ⊢
  refine wp_mono h ?_ fun _ h => h
  intro v' m' h'
  rw [wp_padd] at h' ⊢
  refine ⟨h'.1, ?_⟩
  refine wp_mono h'.2 ?_ ?_
  · intro _ m'' h''
    refine wp_mono h'' ?_ fun _ h => h
    intro k m3 h3
    refine wp_mono h3 ?_ fun _ h => h
    rintro w m4 ⟨v5, he, hq⟩
    cases he; exact hq
  · rintro m'' ⟨v5, he, -⟩
    cases he

end Simd
