import Verif.Lemmas.Parallel
import Verif.Props.Base64
/-
base64-simd, parallel encoding: properties C15, C16. Conventions as in `Verif.Props.Base64`; `p` is the number of threads
of the current Rayon pool. `p * 4096` must not overflow `usize`: Rayon's own limit (at most 65535 threads) ensures this on
64-bit and 32-bit platforms.
-/
namespace Simd
namespace Base64
open Vs

theorem run_assert_true {α : Type} {x : Unit → Prog α} {b m} (hb : b = true) : (Simd.assert b >>= x).run m = (x ()).run m := by
  subst hb; rfl
theorem run_assert_false {α : Type} {x : Unit → Prog α} {b m} (hb : b = false) : (Simd.assert b >>= x).run m = .panic := by
  subst hb; rfl

/-- When `par_encode` splits the work. -/
def Splits (p n : Nat) : Prop := p * 4096 ≤ n ∧ 2 ≤ p ∧ p ≤ n / 3

/-- The tasks of the parallel path. -/
theorem par_encode_run (P : Plat) {i : Option Isa} (hi : i ≠ some .sse2) (config : Config) {m : Mem} {sp dp : Ptr} {xs : List Byte} {d : Nat} (p : Nat)
    (hb : HasBytes m sp xs) (hw : CanWrite m dp d) (ha : Apart sp dp xs.length (text config xs).length)
    (hx : xs.length ≤ P.isizeMax) (hs : Splits p xs.length) (h : (text config xs).length ≤ d) :
    ∃ (ts : List (Prog Unit)) (N : Nat),
      (par_encode P p i config ⟨sp, xs.length⟩ ⟨dp, d⟩).run m = .ok (.par ts ⟨dp, (text config xs).length⟩) m ∧
      ∀ n c, Pool.Steps n (.run ts m) c → n ≤ N ∧ c ≠ .bad ∧ ((∃ c', Pool.Step c c') ∨ c.Done (m.write dp (text config xs))) ∧
        ∀ m', c.Done m' → m' = m.write dp (text config xs) := by
  obtain ⟨h1, h2, h3⟩ := hs
  have hu := isizeMax_le P
  have hu' := usizeMax_ge P
  have hc : 0 < (xs.length / 3 + p) / p := Nat.div_pos (by omega) (by omega)
  have hc' : (xs.length / 3 + p) / p ≤ xs.length / 3 / 2 + 1 := by
    rw [Nat.add_div_right _ (by omega)]
    exact Nat.succ_le_succ (Nat.div_le_div_left h2 (by omega))
  rw [text_length] at h ha
  have hfit := encLen_fits P config.extra.padding xs.length (by omega)
  obtain ⟨qs, a1, a2, a3, a4⟩ := chunks_ok hi config (m := m) hc xs.length sp dp xs rfl
    hb (by unfold CanWrite at hw ⊢; omega) ha
  obtain ⟨N, hN⟩ := par_spec a1 a2 (fun t ht => a4 t ht (by omega)) (by
      rintro t u j hne ⟨-, g1, g2, g3⟩ ⟨-, g4, g5, g6⟩
      rcases Nat.lt_or_gt_of_ne hne with h | h
      · have := Nat.mul_le_mul_right ((xs.length / 3 + p) / p * 3) (show t + 1 ≤ u from h); omega
      · have := Nat.mul_le_mul_right ((xs.length / 3 + p) / p * 3) (show u + 1 ≤ t from h); omega) (by
      rintro t j ⟨g0, g1, g2, g3⟩
      rw [a3, text_length]
      unfold Apart at ha
      omega)
  rw [a3] at hN
  refine ⟨_, N, ?_, hN⟩
  rw [text_length]
  unfold par_encode
  have e1 : P.mulU p 4096 = some (p * 4096) := if_pos (by omega)
  have e2 : P.addU (xs.length / 3) p = some (xs.length / 3 + p) := if_pos (by omega)
  have e3 : P.mulU ((xs.length / 3 + p) / p) 3 = some ((xs.length / 3 + p) / p * 3) := if_pos (by omega)
  have e4 : P.mulU ((xs.length / 3 + p) / p) 4 = some ((xs.length / 3 + p) / p * 4) := if_pos (by omega)
  simp only [e1, liftO, prog_pure_bind]
  have hcond : ¬ (xs.length < p * 4096 ∨ p < 2 ∨ xs.length / 3 < p) := by omega
  refine (congrArg (Prog.run · _) (if_neg hcond)).trans ?_
  rw [encoded_length_unchecked_eq P _ _ hfit]
  simp only [prog_pure_bind, e2, e3, e4, par_chunks]
  refine (run_assert_true (decide_eq_true h)).trans ?_
  rw [if_neg (show ¬ (xs.length / 3 + p) / p * 3 = 0 by omega), if_neg (show ¬ (xs.length / 3 + p) / p * 4 = 0 by omega)]
  rfl

/-- The sequential path is `encode`. -/
theorem par_encode_seq (P : Plat) (i : Option Isa) (config : Config) (src dst : Slice) (p : Nat) (hp : p * 4096 ≤ P.usizeMax)
    (hs : ¬ Splits p src.len) (m : Mem) :
    (par_encode P p i config src dst).run m = match (encode P i config src dst).run m with
      | .ok s m' => .ok (.seq s) m'
      | .err m' => .err m'
      | .panic => .panic
      | .ub => .ub := by
  unfold par_encode
  have e1 : P.mulU p 4096 = some (p * 4096) := if_pos hp
  simp only [e1, liftO, prog_pure_bind]
  unfold Splits at hs
  have hcond : src.len < p * 4096 ∨ p < 2 ∨ src.len / 3 < p := by omega
  refine (congrArg (Prog.run · _) (if_pos hcond)).trans ?_
  rw [run_bind]
  cases (encode P i config src dst).run m <;> rfl

/-- The only outcome of `par_encode`, given what `encode` does. -/
theorem par_outcome (P : Plat) {i : Option Isa} (hi : i ≠ some .sse2) (config : Config) {m : Mem} {sp dp : Ptr} {xs : List Byte} {d : Nat} (p : Nat)
    (hb : HasBytes m sp xs) (hw : CanWrite m dp d) (ha : Apart sp dp xs.length (text config xs).length)
    (hp : p * 4096 ≤ P.usizeMax) (hx : xs.length ≤ P.isizeMax) (h : (text config xs).length ≤ d)
    (hc : (encode P i config ⟨sp, xs.length⟩ ⟨dp, d⟩).run m = .ok ⟨dp, (text config xs).length⟩ (m.write dp (text config xs))) (o : Out Slice) :
    Fork.Outcome (par_encode P p i config ⟨sp, xs.length⟩ ⟨dp, d⟩) m o ↔ o = .ok ⟨dp, (text config xs).length⟩ (m.write dp (text config xs)) := by
  by_cases hs : Splits p xs.length
  · obtain ⟨ts, N, hr, hN⟩ := par_encode_run P hi config p hb hw ha hx hs h
    constructor
    · intro ho
      cases ho with
      | seq h' => rw [hr] at h'; cases h'
      | err h' => rw [hr] at h'; cases h'
      | panic h' => rw [hr] at h'; cases h'
      | ub h' => rw [hr] at h'; cases h'
      | par h' hst hd =>
        rw [hr] at h'; cases h'
        rw [(hN _ _ hst).2.2.2 _ hd]
      | bad h' hst =>
        rw [hr] at h'; cases h'
        exact ((hN _ _ hst).2.1 rfl).elim
    · rintro rfl
      -- run until no step is possible
      have : ∀ k n c, Pool.Steps n (.run ts m) c → N ≤ n + k →
          ∃ n' c', Pool.Steps n' (.run ts m) c' ∧ c'.Done (m.write dp (text config xs)) := by
        intro k
        induction k with
        | zero =>
          intro n c hst hk
          rcases (hN n c hst).2.2.1 with ⟨c', hc⟩ | hd
          · have := (hN _ _ (.tail hst hc)).1; omega
          · exact ⟨n, c, hst, hd⟩
        | succ k ih =>
          intro n c hst hk
          rcases (hN n c hst).2.2.1 with ⟨c', hc⟩ | hd
          · exact ih _ _ (.tail hst hc) (by omega)
          · exact ⟨n, c, hst, hd⟩
      obtain ⟨n, c, hst, hd⟩ := this N 0 _ (.refl _) (by omega)
      exact .par hr hst hd
  · have hr := par_encode_seq P i config ⟨sp, xs.length⟩ ⟨dp, d⟩ p hp hs m
    rw [hc] at hr
    simp only at hr
    constructor
    · intro ho
      cases ho with
      | seq h' => rw [hr] at h'; cases h'; rfl
      | err h' => rw [hr] at h'; cases h'
      | panic h' => rw [hr] at h'; cases h'
      | ub h' => rw [hr] at h'; cases h'
      | par h' hst hd => rw [hr] at h'; cases h'
      | bad h' hst => rw [hr] at h'; cases h'
    · rintro rfl
      exact .seq hr

/-- C15: for every number of threads and every schedule, `par_encode` returns what `encode` returns: the RFC 4648 text in front
of the destination, the rest of the destination kept. There is such an outcome, and no other: no schedule panics, has
undefined behaviour or a data race. -/
theorem C15_par_encode (P : Plat) {i : Option Isa} (hi : i ≠ some .sse2) {config url pad} (hv : IsVariant config url pad)
    (xs : List Byte) (ds : List Cell) (p : Nat) (hp : p * 4096 ≤ P.usizeMax) (hx : xs.length ≤ P.isizeMax)
    (h : (Spec.base64 url pad xs).length ≤ ds.length) (o : Out Slice) :
    Fork.Outcome (par_encode P p i config (whole 0 xs.length) (whole 1 ds.length)) (Mem.ofBufs [xs.map some, ds]) o ↔
      o = .ok (whole 1 (Spec.base64 url pad xs).length)
        (Mem.ofBufs [xs.map some, (Spec.base64 url pad xs).map some ++ ds.drop (Spec.base64 url pad xs).length]) := by
  have hc := C01_encode P hi hv xs ds hx h
  rw [← hv.text] at h hc ⊢
  have hm : (Mem.ofBufs [xs.map some, ds]).write ⟨1, 0⟩ (text config xs) =
      Mem.ofBufs [xs.map some, (text config xs).map some ++ ds.drop (text config xs).length] := by
    rw [ofBufs_write (l := ds) rfl (by simpa using h)]
    simp
  rw [← hm] at hc ⊢
  exact par_outcome P hi config p (hasBytes_ofBufs' rfl) (canWrite_ofBufs (Nat.le_refl _)) (.inl (by simp)) hp hx h hc o

/-- C15: the outcome of `par_encode` is the outcome of `encode`. -/
theorem C15_same_as_encode (P : Plat) {i j : Option Isa} (hi : i ≠ some .sse2) (hj : j ≠ some .sse2) {config url pad} (hv : IsVariant config url pad)
    (xs : List Byte) (ds : List Cell) (p : Nat) (hp : p * 4096 ≤ P.usizeMax) (hx : xs.length ≤ P.isizeMax)
    (h : (Spec.base64 url pad xs).length ≤ ds.length) (o : Out Slice) :
    Fork.Outcome (par_encode P p i config (whole 0 xs.length) (whole 1 ds.length)) (Mem.ofBufs [xs.map some, ds]) o ↔
      o = (encode P j config (whole 0 xs.length) (whole 1 ds.length)).run (Mem.ofBufs [xs.map some, ds]) := by
  rw [C01_encode P hj hv xs ds hx h]
  exact C15_par_encode P hi hv xs ds p hp hx h o

/-- Every execution of the tasks of a `par_encode` that splits its work ends. -/
theorem par_terminates (P : Plat) {i : Option Isa} (hi : i ≠ some .sse2) (config : Config) {m₀ : Mem} {sp dp : Ptr} {xs : List Byte} {d : Nat}
    (p : Nat) (hb : HasBytes m₀ sp xs) (hw : CanWrite m₀ dp d) (ha : Apart sp dp xs.length (text config xs).length)
    (hx : xs.length ≤ P.isizeMax) (h : (text config xs).length ≤ d)
    {ts s m} (hr : (par_encode P p i config ⟨sp, xs.length⟩ ⟨dp, d⟩).run m₀ = .ok (.par ts s) m) :
    ∃ N, ∀ n c, Pool.Steps n (.run ts m) c → n ≤ N ∧ ((∃ c', Pool.Step c c') ∨ ∃ m', c.Done m') := by
  have hs : Splits p xs.length := by
    by_contra hs
    unfold par_encode at hr
    rw [run_bind] at hr
    cases hq : P.mulU p 4096 with
    | none => rw [hq] at hr; cases hr
    | some q =>
      have hq' : p * 4096 ≤ P.usizeMax := by
        unfold Plat.mulU at hq; split at hq
        · assumption
        · cases hq
      have := par_encode_seq P i config ⟨sp, xs.length⟩ ⟨dp, d⟩ p hq' hs m₀
      unfold par_encode at this
      rw [run_bind, hr] at this
      cases he : (encode P i config ⟨sp, xs.length⟩ ⟨dp, d⟩).run m₀ <;> rw [he] at this <;> cases this
  obtain ⟨ts', N, hr', hN⟩ := par_encode_run P hi config p hb hw ha hx hs h
  rw [hr] at hr'; cases hr'
  refine ⟨N, fun n c hst => ⟨(hN n c hst).1, ?_⟩⟩
  rcases (hN n c hst).2.2.1 with h | h
  · exact .inl h
  · exact .inr ⟨_, h⟩

/-- C15: no schedule runs forever, and none gets stuck before all tasks have returned. -/
theorem C15_terminates (P : Plat) {i : Option Isa} (hi : i ≠ some .sse2) {config url pad} (hv : IsVariant config url pad)
    (xs : List Byte) (ds : List Cell) (p : Nat) (hx : xs.length ≤ P.isizeMax) (h : (Spec.base64 url pad xs).length ≤ ds.length)
    {ts s m} (hr : (par_encode P p i config (whole 0 xs.length) (whole 1 ds.length)).run (Mem.ofBufs [xs.map some, ds]) = .ok (.par ts s) m) :
    ∃ N, ∀ n c, Pool.Steps n (.run ts m) c → n ≤ N ∧ ((∃ c', Pool.Step c c') ∨ ∃ m', c.Done m') := by
  rw [← hv.text] at h
  exact par_terminates P hi config p (hasBytes_ofBufs' rfl) (canWrite_ofBufs (Nat.le_refl _)) (.inl (by simp)) hx h hr

/-- 9000 bytes on 2 threads are split; 9000 bytes on 3 threads are not. -/
example : Splits 2 9000 ∧ ¬ Splits 3 9000 ∧ 2 * 4096 ≤ (⟨64, by decide⟩ : Plat).usizeMax := by
  refine ⟨?_, ?_, ?_⟩ <;> simp [Splits, Plat.usizeMax]

/-! ### C16 -/

/-- C16, the part that holds: whenever the work is not split, a short destination is reported as `Err` and left alone.
Missing: the parallel path, where the claim is false (`C16_panics`). -/
theorem C16_short_partial (P : Plat) {i : Option Isa} (hi : i ≠ some .sse2) {config url pad} (hv : IsVariant config url pad)
    (xs : List Byte) (ds : List Cell) (p : Nat) (hp : p * 4096 ≤ P.usizeMax) (hx : xs.length ≤ P.isizeMax)
    (h : ds.length < (Spec.base64 url pad xs).length) (hs : ¬ Splits p xs.length) (o : Out Slice) :
    Fork.Outcome (par_encode P p i config (whole 0 xs.length) (whole 1 ds.length)) (Mem.ofBufs [xs.map some, ds]) o ↔
      o = .err (Mem.ofBufs [xs.map some, ds]) := by
  have hc : (encode P i config (whole 0 xs.length) (whole 1 ds.length)).run (Mem.ofBufs [xs.map some, ds]) = .err (Mem.ofBufs [xs.map some, ds]) := by
    have := hv.fits P hx
    rw [← hv.text] at h
    exact (encApi hi config).encode_err P xs ds h this
  have hr := par_encode_seq P i config (whole 0 xs.length) (whole 1 ds.length) p hp hs (Mem.ofBufs [xs.map some, ds])
  rw [hc] at hr
  simp only at hr
  constructor
  · intro ho
    cases ho with
    | seq h' => rw [hr] at h'; cases h'
    | err h' => rw [hr] at h'; cases h'; rfl
    | panic h' => rw [hr] at h'; cases h'
    | ub h' => rw [hr] at h'; cases h'
    | par h' hst hd => rw [hr] at h'; cases h'
    | bad h' hst => rw [hr] at h'; cases h'
  · rintro rfl
    exact .err hr

/-- C16 is violated: whenever the work is split, a short destination makes `par_encode` panic. -/
theorem C16_panics (P : Plat) (i : Option Isa) {config url pad} (hv : IsVariant config url pad)
    (xs : List Byte) (ds : List Cell) (p : Nat) (hx : xs.length ≤ P.isizeMax)
    (h : ds.length < (Spec.base64 url pad xs).length) (hs : Splits p xs.length) :
    (par_encode P p i config (whole 0 xs.length) (whole 1 ds.length)).run (Mem.ofBufs [xs.map some, ds]) = .panic := by
  obtain ⟨h1, h2, h3⟩ := hs
  have hu := isizeMax_le P
  rw [← hv.text, text_length] at h
  have hfit := encLen_fits P config.extra.padding xs.length (by omega)
  unfold par_encode
  have e1 : P.mulU p 4096 = some (p * 4096) := if_pos (by omega)
  simp only [whole, e1, liftO, prog_pure_bind]
  have hcond : ¬ (xs.length < p * 4096 ∨ p < 2 ∨ xs.length / 3 < p) := by omega
  refine (congrArg (Prog.run · _) (if_neg hcond)).trans ?_
  rw [encoded_length_unchecked_eq P _ _ hfit]
  simp only [prog_pure_bind]
  exact run_assert_false (decide_eq_false (by omega))

/-- C16 is violated: a concrete witness (two threads, 8192 zero bytes, empty destination). -/
theorem C16_violated : ¬ ∀ (P : Plat) (i : Option Isa) (config : Config) (xs : List Byte) (ds : List Cell) (p : Nat),
    i ≠ some .sse2 → p * 4096 ≤ P.usizeMax → xs.length ≤ P.isizeMax → ds.length < (text config xs).length →
    ∃ m', Fork.Outcome (par_encode P p i config (whole 0 xs.length) (whole 1 ds.length)) (Mem.ofBufs [xs.map some, ds]) (.err m') := by
  intro hall
  have hv : IsVariant STANDARD false true := .inl ⟨rfl, rfl, rfl⟩
  have hl : (List.replicate 8192 (0 : Byte)).length = 8192 := List.length_replicate
  have hx : (List.replicate 8192 (0 : Byte)).length ≤ (⟨64, by decide⟩ : Plat).isizeMax := by rw [hl]; decide
  have ht : ([] : List Cell).length < (text STANDARD (List.replicate 8192 0)).length := by
    rw [text_length, hl]; decide
  obtain ⟨m', ho⟩ := hall ⟨64, by decide⟩ none STANDARD (List.replicate 8192 0) [] 2 (by simp) (by decide) hx ht
  have hr := C16_panics ⟨64, by decide⟩ none hv (List.replicate 8192 0) [] 2 hx (by rw [← hv.text]; exact ht) (by rw [hl]; unfold Splits; decide)
  cases ho with
  | err h' => rw [hr] at h'; cases h'

end Base64
end Simd
