import Verif.Lemmas.Par
import Verif.Lemmas.Base64Api
/-
The chunk tasks of `par_encode`.
-/
namespace Simd.Base64
open Vs Spec

/-! ### The encoder stores only to the destination buffer -/

section
variable {D : Nat}

theorem stores_bits24 {q : Ptr} (h : q.buf = D) (p cs) : Stores D (fun _ => True) (encode_bits24 p q cs) :=
  .seq (.rd _ _) fun _ => .seq (.rd _ _) fun _ => .seq (.rd _ _) fun _ =>
    .forFrom (fun _ => .seq (.tread _ _) fun _ => .wrt h _ _) _ _

theorem stores_bits48 {q : Ptr} (h : q.buf = D) (p cs) : Stores D (fun _ => True) (encode_bits48 p q cs) :=
  .seq (.loadBytes _ _) fun _ => .forFrom (fun _ => .seq (.tread _ _) fun _ => .wrt h _ _) _ _

theorem stores_extra {q : Ptr} (h : q.buf = D) (e p cs pad) : Stores D (fun _ => True) (encode_extra e p q cs pad) := by
  unfold encode_extra
  split
  · trivial
  · refine .seq (.rd _ _) fun _ => .seq (.tread _ _) fun _ => .seq (.tread _ _) fun _ => .seq (.wrt h _ _) fun _ => .seq (.wrt h _ _) fun _ => ?_
    split
    · exact .seq (.wrt h _ _) fun _ => .wrt h _ _
    · trivial
  · refine .seq (.rd _ _) fun _ => .seq (.rd _ _) fun _ => .seq (.tread _ _) fun _ => .seq (.tread _ _) fun _ => .seq (.tread _ _) fun _ =>
      .seq (.wrt h _ _) fun _ => .seq (.wrt h _ _) fun _ => .seq (.wrt h _ _) fun _ => ?_
    split
    · exact .wrt h _ _
    · trivial
  · trivial

theorem stores_inner (cs) : ∀ k p q, q.buf = D → Stores D (fun r : Ptr × Ptr => r.2.buf = D) (encode_inner cs k p q)
  | 0, _, _, h => h
  | k + 1, _, _, h => .seq (stores_bits48 h _ _) fun _ => .seq (.padd _ _) fun _ => .seq (.padd _ _) fun _ => stores_inner cs k _ _ h

theorem stores_loop24 (cs p q) (n : Nat) (h : q.buf = D) : Stores D (fun r : Ptr × Ptr × Nat => r.2.1.buf = D) (encode_loop24 cs p q n) := by
  unfold encode_loop24
  split
  · exact .bind (stores_inner cs 4 p q h) fun r hr => stores_loop24 cs r.1 r.2 (n - 4 * 6) hr
  · exact h
termination_by n

theorem stores_loop6 (cs p q) (n : Nat) (h : q.buf = D) : Stores D (fun r : Ptr × Ptr × Nat => r.2.1.buf = D) (encode_loop6 cs p q n) := by
  unfold encode_loop6
  split
  · exact .seq (stores_bits48 h _ _) fun _ => .seq (.padd _ _) fun _ => .seq (.padd _ _) fun _ => stores_loop6 cs _ _ (n - 6) h
  · exact h
termination_by n

theorem stores_loop3 (cs) (end_ : Nat) (p q : Ptr) (h : q.buf = D) : Stores D (fun r : Ptr × Ptr => r.2.buf = D) (encode_loop3 cs end_ p q) := by
  unfold encode_loop3
  split
  · exact .seq (stores_bits24 h _ _) fun _ => .seq (.padd _ _) fun _ => .seq (.padd _ _) fun _ => stores_loop3 cs end_ (p.add 3) (q.add 4) h
  · exact h
termination_by end_ - p.off
decreasing_by simp only [Ptr.add]; omega

theorem stores_fallback {q : Ptr} (h : q.buf = D) (p n config) : Stores D (fun _ => True) (encode_fallback p n q config) :=
  .bind (stores_loop24 _ _ _ _ h) fun _ h => .bind (stores_loop6 _ _ _ _ h) fun _ h => .seq (.padd _ _) fun _ =>
    .bind (stores_loop3 _ _ _ _ h) fun _ h => stores_extra h _ _ _ _

theorem stores_head (cs) : ∀ k p q n, q.buf = D → Stores D (fun r : Ptr × Ptr × Nat => r.2.1.buf = D) (encode_head cs k p q n)
  | 0, _, _, _, h => h
  | k + 1, _, _, _, h => .seq (stores_bits24 h _ _) fun _ => .seq (.padd _ _) fun _ => .seq (.padd _ _) fun _ => .seq (.assert _) fun _ => stores_head cs k _ _ _ h

theorem stores_x2 (s lut p q) (n : Nat) (h : q.buf = D) : Stores D (fun r : Ptr × Ptr × Nat => r.2.1.buf = D) (encode_loop_x2 s lut p q n) := by
  unfold encode_loop_x2
  split
  · exact .seq (.psub _ _) fun _ => .seq (.v256_load _ _) fun _ => .seq (.liftO _) fun _ => .seq (.v256_store h _ _) fun _ =>
      .seq (.padd _ _) fun _ => .seq (.padd _ _) fun _ => stores_x2 s lut _ _ (n - 24) h
  · exact h
termination_by n

theorem stores_simd1 {q : Ptr} (h : q.buf = D) (s p n kind) : Stores D (fun r : Ptr × Ptr × Nat => r.2.1.buf = D) (encode_simd1 s p q n kind) := by
  unfold encode_simd1
  split
  · exact .bind (stores_head _ _ _ _ _ h) fun _ h => stores_x2 _ _ _ _ _ h
  · exact h

theorem stores_simd2 {q : Ptr} (h : q.buf = D) (s p n kind) : Stores D (fun r : Ptr × Ptr × Nat => r.2.1.buf = D) (encode_simd2 s p q n kind) := by
  unfold encode_simd2
  split
  · exact .seq (.v128_load _ _) fun _ => .seq (.liftO _) fun _ => .seq (.v128_store h _ _) fun _ =>
      .seq (.padd _ _) fun _ => .seq (.padd _ _) fun _ => h
  · exact h

theorem stores_auto {q : Ptr} (h : q.buf = D) (i p n config) : Stores D (fun _ => True) (encode_auto i p n q config) := by
  cases i with
  | none => exact stores_fallback h _ _ _
  | some s => exact .bind (stores_simd1 h _ _ _ _) fun _ h => .bind (stores_simd2 h _ _ _ _) fun _ h => stores_fallback h _ _ _

end

/-! ### One chunk -/

theorem enc64_pad_mod3 (ch) (xs : List Byte) (h : xs.length % 3 = 0) : enc64 ch false xs = enc64 ch true xs := by
  rw [enc64_pad, enc64_length]
  unfold encLen
  rw [if_pos h, show (4 - xs.length / 3 * 4 % 4) % 4 = 0 by omega]
  simp

/-- The memory in which only the bytes `xs` at `p` are initialised. -/
def only (m : Mem) (p : Ptr) (n : Nat) : Mem :=
  { m with cell := fun b i => if b = p.buf ∧ p.off ≤ i ∧ i < p.off + n then m.cell b i else none }

theorem auto_run {i : Option Isa} (hi : i ≠ some .sse2) {m p q} {config : Config} {xs : List Byte} (hx : HasBytes m p xs)
    (hw : CanWrite m q (encLen config.extra.padding xs.length)) (hd : Apart p q xs.length (encLen config.extra.padding xs.length)) :
    (encode_auto i p xs.length q config).run m = .ok () (m.write q (text config xs)) := by
  rcases wp_out (encode_auto_spec hi hx rfl hw hd) with ⟨a, m', hr, -, ys, hy, -, rfl⟩ | ⟨m', hr, hn, -⟩
  · rw [hr, text_eq]; cases hy; rfl
  · cases hn

theorem task_ok {i : Option Isa} (hi : i ≠ some .sse2) (config : Config) {m : Mem} {p q : Ptr} {xs : List Byte} {n : Nat} (hx : HasBytes m p xs)
    (hw : CanWrite m q (encLen config.extra.padding xs.length)) (hd : Apart p q xs.length (encLen config.extra.padding xs.length)) :
    TaskOk q.buf m (par_task i config ⟨p, xs.length⟩ ⟨q, n⟩) (q.off, text config xs)
      (fun j => p.buf = q.buf ∧ p.off ≤ j ∧ j < p.off + xs.length) := by
  have hstore : ∀ config, Stores q.buf (fun _ => True) (encode_auto i p xs.length q config) := fun _ => stores_auto rfl _ _ _ _
  have hx' : HasBytes (only m p xs.length) p xs :=
    ⟨hx.bound, fun j hj => (if_pos ⟨rfl, by omega, by omega⟩).trans (hx.get hj)⟩
  have hsub : Sub (only m p xs.length) m := by
    refine ⟨fun b => Nat.le_refl _, fun b i v hv => ?_⟩
    by_cases h : b = p.buf ∧ p.off ≤ i ∧ i < p.off + xs.length
    · exact (if_pos h).symm.trans hv
    · cases (if_neg h).symm.trans hv
  have hun : ∀ j, (only m p xs.length).cell q.buf j ≠ none → p.buf = q.buf ∧ p.off ≤ j ∧ j < p.off + xs.length := by
    intro j hj
    by_contra h
    exact hj (if_neg fun h' => h ⟨h'.1.symm, h'.2⟩)
  unfold par_task
  by_cases h1 : config.extra.padding = true
  · rw [if_pos h1]
    by_cases h2 : xs.length % 3 = 0
    · rw [if_pos (by exact h2)]
      refine ⟨hstore _, _, hsub, hun, ?_⟩
      have hw' : CanWrite (only m p xs.length) q (encLen (Extra.padding .noPad) xs.length) := by
        unfold CanWrite at *
        unfold encLen at hw ⊢
        rw [if_pos h2] at hw ⊢
        exact hw
      have hd' : Apart p q xs.length (encLen (Extra.padding .noPad) xs.length) := by
        unfold encLen at hd ⊢
        rw [if_pos h2] at hd ⊢
        exact hd
      rw [auto_run (config := ⟨config.kind, .noPad⟩) hi hx' hw' hd']
      rw [text_eq, text_eq, h1]
      exact congrArg _ (congrArg _ (enc64_pad_mod3 _ xs h2))
    · rw [if_neg (by exact h2)]
      exact ⟨hstore _, _, hsub, hun, auto_run hi hx' hw hd⟩
  · rw [if_neg h1]
    exact ⟨hstore _, _, hsub, hun, auto_run hi hx' hw hd⟩

theorem text_append (config : Config) {xs ys : List Byte} (h : xs.length % 3 = 0) : text config (xs ++ ys) = text config xs ++ text config ys := by
  simp only [text_eq]; exact enc64_app _ _ h

theorem encLen_pos (pad) {n : Nat} (h : 0 < n) : 0 < encLen pad n := by unfold encLen; split <;> [skip; split] <;> omega

/-- The chunks of source and destination correspond. -/
theorem chunks_ok {i : Option Isa} (hi : i ≠ some .sse2) (config : Config) {m : Mem} {c : Nat} (hc : 0 < c) :
    ∀ n p q (xs : List Byte), xs.length = n → HasBytes m p xs → CanWrite m q (encLen config.extra.padding n) → Apart p q n (encLen config.extra.padding n) →
      let ts := ((chunksFrom p (c * 3) n).zip (chunksFrom q (c * 4) (encLen config.extra.padding n))).map fun sd => par_task i config sd.1 sd.2
      ∃ qs : List (Nat × List Byte), ts.length = qs.length ∧ Contig q.off qs ∧ allBytes qs = text config xs ∧
        ∀ t, (h : t < ts.length) → (h' : t < qs.length) → TaskOk q.buf m ts[t] qs[t]
          (fun j => p.buf = q.buf ∧ p.off + t * (c * 3) ≤ j ∧ j < p.off + n ∧ j < p.off + (t + 1) * (c * 3)) := by
  intro n
  induction n using Nat.strongRecOn with
  | ind n ih =>
    intro p q xs hl hx hw hd
    by_cases h0 : n = 0
    · subst h0
      cases List.length_eq_zero_iff.1 hl
      refine ⟨[], ?_, trivial, ?_, ?_⟩
      · rw [chunksFrom]; simp
      · simp [allBytes, text_eq]
      · intro t _ h; simp at h
    · by_cases h1 : n ≤ c * 3
      · have e1 : chunksFrom p (c * 3) n = [⟨p, n⟩] := by
          rw [chunksFrom, dif_pos (by omega), chunksFrom, dif_neg (by omega), Nat.min_eq_right h1]
        have hle : encLen config.extra.padding n ≤ c * 4 := by
          unfold encLen; split <;> [skip; split] <;> omega
        have hpos := encLen_pos config.extra.padding (n := n) (by omega)
        have e2 : chunksFrom q (c * 4) (encLen config.extra.padding n) = [⟨q, encLen config.extra.padding n⟩] := by
          rw [chunksFrom, dif_pos (by omega), chunksFrom, dif_neg (by omega), Nat.min_eq_right hle]
        rw [e1, e2]
        refine ⟨[(q.off, text config xs)], rfl, ⟨rfl, trivial⟩, by simp [allBytes], ?_⟩
        intro t h h'
        have : t = 0 := by simpa using h'
        subst this
        subst hl
        exact (task_ok hi config hx hw hd).mono fun j hj => ⟨hj.1, by omega, by omega, by omega⟩
      · have hstep : encLen config.extra.padding n = c * 4 + encLen config.extra.padding (n - c * 3) := by
          rw [encLen_step _ c n (by omega), Nat.mul_comm 4 c, Nat.mul_comm 3 c]
        have hpos := encLen_pos config.extra.padding (n := n - c * 3) (by omega)
        have e1 : chunksFrom p (c * 3) n = ⟨p, c * 3⟩ :: chunksFrom (p.add (c * 3)) (c * 3) (n - c * 3) := by
          rw [chunksFrom, dif_pos (by omega), Nat.min_eq_left (by omega)]
        have e2 : chunksFrom q (c * 4) (encLen config.extra.padding n) =
            ⟨q, c * 4⟩ :: chunksFrom (q.add (c * 4)) (c * 4) (encLen config.extra.padding (n - c * 3)) := by
          rw [chunksFrom, dif_pos (by omega), Nat.min_eq_left (by omega), hstep]
          congr 2; omega
        unfold CanWrite at hw
        have hlt : (xs.take (c * 3)).length = c * 3 := by rw [List.length_take]; omega
        have het : encLen config.extra.padding (c * 3) = c * 4 := by
          unfold encLen; rw [if_pos (by omega)]; omega
        have htl : (text config (xs.take (c * 3))).length = c * 4 := by rw [text_length, hlt, het]
        obtain ⟨qs, a1, a2, a3, a4⟩ := ih (n - c * 3) (by omega) (p.add (c * 3)) (q.add (c * 4)) (xs.drop (c * 3)) (by simp; omega)
          (hx.drop _ (by omega)) (by unfold CanWrite; simp; omega)
          (by unfold Apart at hd ⊢; simp only [Ptr.add]; omega)
        rw [e1, e2]
        simp only [List.zip_cons_cons, List.map_cons]
        refine ⟨(q.off, text config (xs.take (c * 3))) :: qs, by simpa using a1, ⟨rfl, ?_⟩, ?_, ?_⟩
        · simp only [htl]; exact a2
        · rw [allBytes, List.flatMap_cons, ← allBytes, a3, ← text_append config (by omega), List.take_append_drop]
        · intro t h h'
          cases t with
          | zero =>
            have := task_ok hi config (m := m) (p := p) (q := q) (xs := xs.take (c * 3)) (n := c * 4) (hx.take _)
              (by unfold CanWrite; rw [hlt, het]; omega) (by rw [hlt, het]; unfold Apart at hd ⊢; omega)
            rw [hlt] at this
            exact this.mono fun j hj => ⟨hj.1, by omega, by omega, by omega⟩
          | succ t =>
            refine (a4 t (by simpa using h) (by simpa using h')).mono fun j hj => ?_
            simp only [Ptr.add] at hj
            have e1 : (t + 1) * (c * 3) = t * (c * 3) + c * 3 := Nat.succ_mul _ _
            have e2 : (t + 1 + 1) * (c * 3) = (t + 1) * (c * 3) + c * 3 := Nat.succ_mul _ _
            exact ⟨hj.1, by omega, by omega, by omega⟩

end Simd.Base64
