import Verif.Spec.Forgiving
import Verif.Lemmas.LoadStore
import Verif.Lemmas.Blocks
import Verif.Model.Forgiving
/-
Every implementation of the whitespace scanner finds the first whitespace byte; the removal loop is a filter.
-/
namespace Simd
namespace Base64
open Vs IsaId Intrin Spec

theorem lookup_ws_wp {c : Byte} {Q : Byte → Mem → Prop} {E m} (h : ∀ f : Byte, (f = 0#8 ↔ isWs c = false) → Q f m) :
    wp (lookup_ascii_whitespace c) Q E m := by
  unfold lookup_ascii_whitespace
  have hl : WHITESPACE_TABLE.length = 256 := by simp [WHITESPACE_TABLE]
  refine wp_tread.2 ⟨by rw [hl]; exact c.isLt, ?_⟩
  have : ∀ c : Byte, WHITESPACE_TABLE[c.toNat]? = some (if isWs c then 255#8 else 0#8) := by decide +kernel
  have := this c
  rw [List.getElem?_eq_getElem (by rw [hl]; exact c.isLt)] at this
  rw [Option.some.inj this]; exact h _ (by cases isWs c <;> simp)

theorem ws_mask (c : Byte) :
    ((maskOf 8 ((c - 0x89#8).slt (BitVec.ofInt 8 (-123))) &&& ~~~ maskOf 8 (c == 0x0b#8)) ||| maskOf 8 (c == 0x20#8) != 0#8) = isWs c := by
  revert c; decide +kernel

/-- The text contains whitespace. -/
def hasWs (xs : List Byte) : Bool := xs.any isWs

theorem has_ws_spec {n} [Scalable n] [LawfulScalable n] (s : Isa) (xs : List Byte) (hl : xs.length = n) :
    has_ascii_whitespace s (.ofList xs : Vec n) = some (hasWs xs) := by
  unfold has_ascii_whitespace
  simp only [LawfulScalable.splat8_eq, LawfulScalable.sub_eq, LawfulScalable.andnot_eq, LawfulScalable.lt_eq, LawfulScalable.or_eq,
    LawfulScalable.eq_eq, Option.bind_eq_bind, Option.bind_some]
  rw [LawfulScalable.any_eq _ _ (IsMask.or (IsMask.bic (isMask_lt_i8 _ _) (isMask_eq8 _ _)) (isMask_eq8 _ _))]
  congr 1
  rw [Bool.eq_iff_iff, anyLane_iff, hasWs, List.any_eq_true]
  have key : ∀ i, i < n → ((Intrin.or (Intrin.bic
      (lt_i8 (sub8 (Vec.ofList xs : Vec n) (set1_8 0x89)) (set1_8 (BitVec.ofInt 8 (-128 + 5))))
      (eq8 (Vec.ofList xs : Vec n) (set1_8 0x0b))) (eq8 (Vec.ofList xs : Vec n) (set1_8 0x20))).lane i != 0#8)
      = isWs (xs.getD i 0) := fun i _ => ws_mask _
  constructor
  · rintro ⟨i, hi, h⟩
    rw [key i hi] at h
    exact ⟨_, List.getElem_mem (show i < xs.length by omega), by rwa [List.getD_eq_getElem?_getD, List.getElem?_eq_getElem (show i < xs.length by omega)] at h⟩
  · rintro ⟨c, hc, h⟩
    obtain ⟨i, hi, rfl⟩ := List.getElem_of_mem hc
    refine ⟨i, by omega, ?_⟩
    rw [key i (by omega), List.getD_eq_getElem?_getD, List.getElem?_eq_getElem hi]; exact h

/-- Position of the first whitespace byte (the length if there is none). -/
def firstWs (xs : List Byte) : Nat := xs.findIdx isWs

theorem firstWs_le (xs) : firstWs xs ≤ xs.length := List.findIdx_le_length

theorem firstWs_append {xs ys : List Byte} (h : hasWs xs = false) : firstWs (xs ++ ys) = xs.length + firstWs ys := by
  unfold firstWs
  rw [List.findIdx_append]
  have : List.findIdx isWs xs = xs.length := by
    rw [List.findIdx_eq_length]
    intro x hx
    unfold hasWs at h
    exact Bool.eq_false_iff.2 fun hw => (List.any_eq_false.1 h x hx) hw
  rw [this]; simp; omega

theorem firstWs_drop {xs : List Byte} {k : Nat} (hk : k ≤ xs.length) (h : hasWs (xs.take k) = false) : firstWs xs = k + firstWs (xs.drop k) := by
  conv => lhs; rw [← List.take_append_drop k xs]
  rw [firstWs_append h, List.length_take, Nat.min_eq_left hk]

theorem hasWs_take_add {xs : List Byte} {k j : Nat} (h1 : hasWs (xs.take k) = false) (h2 : hasWs ((xs.drop k).take j) = false) :
    hasWs (xs.take (k + j)) = false := by
  rw [List.take_add, hasWs, List.any_append]
  unfold hasWs at h1 h2
  rw [h1, h2]; rfl

theorem find_short_loop_wp : ∀ {xs : List Byte} {m p} {Q : Ptr → Mem → Prop} {E}, HasBytes m p xs → Q (p.add (firstWs xs)) m →
    wp (find_short_loop (p.off + xs.length) p) Q E m := by
  intro xs
  induction xs with
  | nil =>
    intro m p Q E hx hQ
    rw [find_short_loop, if_neg (by simp)]; exact hQ
  | cons x xs ih =>
    intro m p Q E hx hQ
    have hb := hx.bound
    have hx' : HasBytes m p ([x] ++ xs) := hx
    simp only [List.length_cons] at hb
    rw [find_short_loop, if_pos (by simp)]
    rw [wp_bind, wp_rd_iff hx (show 0 < (x :: xs).length by simp), wp_bind]
    refine lookup_ws_wp fun f hf => ?_
    simp only [List.getElem_cons_zero] at hf ⊢
    by_cases hw : isWs x = true
    · rw [if_pos (by exact fun h => by rw [hf.1 h] at hw; cases hw)]
      have : firstWs (x :: xs) = 0 := by simp [firstWs, List.findIdx_cons, hw]
      rw [this] at hQ; exact hQ
    · rw [if_neg (by exact fun h => h (hf.2 (by simpa using hw))), wp_bind, wp_padd]
      refine ⟨by omega, ?_⟩
      have : firstWs (x :: xs) = firstWs xs + 1 := by simp [firstWs, List.findIdx_cons, hw]
      have := ih (p := p.add 1) (Q := Q) (E := E) hx'.right (by rw [Ptr.add_add, Nat.add_comm, ← this]; exact hQ)
      rwa [show (p.add 1).off + xs.length = p.off + (x :: xs).length by simp; omega] at this

theorem find_short_wp {xs : List Byte} {k m p} {Q : Nat → Mem → Prop} {E} (hx : HasBytes m p xs) (hl : xs.length = k) (hQ : Q (firstWs xs) m) :
    wp (find_non_ascii_whitespace_short p k) Q E m := by
  subst hl
  have hb := hx.bound
  unfold find_non_ascii_whitespace_short
  rw [wp_bind, wp_padd]
  refine ⟨hb, ?_⟩
  rw [wp_bind]
  refine find_short_loop_wp hx ?_
  rw [wp_offset_from]; exact hQ

/-- A block loop stops at a position with no whitespace before it. -/
theorem find_block_loop {F : Nat → Ptr → Prog Ptr} {a : Nat} (ha : 0 < a)
    (hstop : ∀ e p, ¬ p.off < e → F e p = pure p)
    (hstep : ∀ e m p xs (Q : Ptr → Mem → Prop) E, p.off < e → xs.length = a → HasBytes m p xs →
      (hasWs xs = false → wp (F e (p.add a)) Q E m) → Q p m → wp (F e p) Q E m) :
    ∀ (j : Nat) {m p} {xs : List Byte} {Q : Ptr → Mem → Prop} {E}, a * j ≤ xs.length → HasBytes m p xs →
      (∀ k, k ≤ j → hasWs (xs.take (a * k)) = false → Q (p.add (a * k)) m) → wp (F (p.off + a * j) p) Q E m := by
  intro j
  induction j with
  | zero =>
    intro m p xs Q E hl hx hQ
    rw [hstop _ _ (by omega)]
    exact hQ 0 (Nat.le_refl _) rfl
  | succ j ih =>
    intro m p xs Q E hl hx hQ
    rw [Nat.mul_succ] at hl
    have hla : (xs.take a).length = a := by rw [List.length_take]; omega
    refine hstep _ m p (xs.take a) Q E (by rw [Nat.mul_succ]; omega) hla (hx.take a) ?_ (hQ 0 (by omega) rfl)
    intro hw
    have := ih (p := p.add a) (m := m) (xs := xs.drop a) (Q := Q) (E := E) (by rw [List.length_drop]; omega) (hx.drop a (by omega)) (by
      intro k hk h
      rw [Ptr.add_add, show a + a * k = a * (k + 1) by rw [Nat.mul_succ]; omega]
      exact hQ (k + 1) (by omega) (by
        rw [Nat.mul_succ, Nat.add_comm]; exact hasWs_take_add hw h))
    rwa [show (p.add a).off + a * j = p.off + a * (j + 1) by rw [Nat.mul_succ, Ptr.add_off]; omega] at this

theorem find_loop32_wp (s : Isa) (j : Nat) {m p} {xs : List Byte} {Q : Ptr → Mem → Prop} {E} (hl : 32 * j ≤ xs.length) (hx : HasBytes m p xs)
    (hQ : ∀ k, k ≤ j → hasWs (xs.take (32 * k)) = false → Q (p.add (32 * k)) m) : wp (find_loop32 s (p.off + 32 * j) p) Q E m := by
  refine find_block_loop (F := find_loop32 s) (a := 32) (by omega) (fun e p h => by rw [find_loop32, if_neg h]) ?_ j hl hx hQ
  intro e m p xs Q E he hl hx hk hq
  have hb := hx.bound
  rw [find_loop32, if_pos he]
  simp only [wp_bind, wp_v256_load hx hl, has_ws_spec s xs hl, wp_liftO_some]
  cases hw : hasWs xs
  · rw [if_neg (by simp), wp_bind, wp_padd]; exact ⟨by omega, hk hw⟩
  · exact hq

theorem find_loop16_wp (s : Isa) (j : Nat) {m p} {xs : List Byte} {Q : Ptr → Mem → Prop} {E} (hl : 16 * j ≤ xs.length) (hx : HasBytes m p xs)
    (hQ : ∀ k, k ≤ j → hasWs (xs.take (16 * k)) = false → Q (p.add (16 * k)) m) : wp (find_loop16 s (p.off + 16 * j) p) Q E m := by
  refine find_block_loop (F := find_loop16 s) (a := 16) (by omega) (fun e p h => by rw [find_loop16, if_neg h]) ?_ j hl hx hQ
  intro e m p xs Q E he hl hx hk hq
  have hb := hx.bound
  rw [find_loop16, if_pos he]
  simp only [wp_bind, wp_v128_load hx hl, has_ws_spec s xs hl, wp_liftO_some]
  cases hw : hasWs xs
  · rw [if_neg (by simp), wp_bind, wp_padd]; exact ⟨by omega, hk hw⟩
  · exact hq

theorem find_simd_part_wp (s : Isa) {m p} {xs : List Byte} {Q : Ptr → Mem → Prop} {E} (hx : HasBytes m p xs)
    (hQ : ∀ k, k ≤ xs.length → hasWs (xs.take k) = false → Q (p.add k) m) : wp (find_simd_part s p xs.length) Q E m := by
  have hb := hx.bound
  unfold find_simd_part
  split
  · rw [wp_bind, wp_padd]
    refine ⟨by omega, ?_⟩
    rw [show xs.length / 32 * 32 = 32 * (xs.length / 32) by omega, wp_bind]
    refine find_loop32_wp s (xs.length / 32) (by omega) hx ?_
    intro k hk hw
    split
    · rename_i h16
      have hx' := (hx.drop (32 * k) (by omega)).take 16
      have hl' : ((xs.drop (32 * k)).take 16).length = 16 := by rw [List.length_take, List.length_drop]; omega
      simp only [wp_bind, wp_v128_load hx' hl', has_ws_spec s _ hl', wp_liftO_some]
      cases hw' : hasWs ((xs.drop (32 * k)).take 16)
      · rw [if_pos (by simp), wp_bind, wp_padd, wp_pure, Ptr.add_add]
        exact ⟨by simp; omega, hQ _ (by omega) (hasWs_take_add hw hw')⟩
      · exact hQ _ (by omega) hw
    · exact hQ _ (by omega) hw
  · rw [wp_bind, wp_padd]
    refine ⟨by omega, ?_⟩
    rw [show xs.length / 16 * 16 = 16 * (xs.length / 16) by omega]
    refine find_loop16_wp s (xs.length / 16) (by omega) hx ?_
    intro k hk hw
    exact hQ _ (by omega) hw

theorem find_wp (i : Option Isa) {m p} {xs : List Byte} {Q : Nat → Mem → Prop} {E} (hx : HasBytes m p xs) (hQ : Q (firstWs xs) m) :
    wp (find_non_ascii_whitespace i ⟨p, xs.length⟩) Q E m := by
  cases i with
  | none => exact find_short_wp hx rfl hQ
  | some s =>
    unfold find_non_ascii_whitespace find_non_ascii_whitespace_simd
    simp only [wp_bind]
    refine find_simd_part_wp s hx ?_
    intro k hk hw
    rw [wp_offset_from, wp_assert]
    refine ⟨by simpa using hk, ?_⟩
    refine find_short_wp (hx.drop k hk) (by rw [List.length_drop]) ?_
    rw [wp_pure, ← firstWs_drop hk hw]; exact hQ

/-! ### Removal -/

theorem stripWs_append (xs ys : List Byte) : stripWs (xs ++ ys) = stripWs xs ++ stripWs ys := List.filter_append ..

theorem stripWs_length (xs : List Byte) : (stripWs xs).length ≤ xs.length := List.length_filter_le ..

theorem remove_loop_wp : ∀ {xs : List Byte} {m p q} {Q : Ptr → Mem → Prop} {E}, HasBytes m p xs → CanWrite m q xs.length →
    Behind p q xs.length → Q (q.add (stripWs xs).length) (m.write q (stripWs xs)) →
    wp (remove_loop (p.off + xs.length) p q) Q E m := by
  intro xs
  induction xs with
  | nil =>
    intro m p q Q E hx hw hd hQ
    rw [remove_loop, if_neg (by simp)]
    simpa [stripWs] using hQ
  | cons x xs ih =>
    intro m p q Q E hx hw hd hQ
    have hb := hx.bound
    have hx' : HasBytes m p ([x] ++ xs) := hx
    unfold CanWrite at hw
    simp only [List.length_cons] at hb hw
    rw [remove_loop, if_pos (by simp)]
    rw [wp_bind, wp_rd_iff hx (show 0 < (x :: xs).length by simp), wp_bind]
    refine lookup_ws_wp fun f hf => ?_
    simp only [List.getElem_cons_zero] at hf ⊢
    have he : (p.add 1).off + xs.length = p.off + (x :: xs).length := by simp; omega
    by_cases hws : isWs x = true
    · rw [if_neg (by exact fun h => by rw [hf.1 h] at hws; cases hws), wp_bind, wp_padd]
      refine ⟨by omega, ?_⟩
      have e : stripWs (x :: xs) = stripWs xs := by simp [stripWs, hws]
      rw [e] at hQ
      have := ih (p := p.add 1) (q := q) (Q := Q) (E := E) hx'.right (by unfold CanWrite; omega) (by
        unfold Behind at hd ⊢; simp at hd ⊢; omega) hQ
      rwa [he] at this
    · rw [if_pos (by exact hf.2 (by simpa using hws)), wp_bind, wp_wrt]
      refine ⟨by omega, ?_⟩
      rw [wp_bind, wp_padd]
      refine ⟨by simp; omega, ?_⟩
      rw [wp_bind, wp_padd]
      refine ⟨by simp; omega, ?_⟩
      have e : stripWs (x :: xs) = [x] ++ stripWs xs := by simp [stripWs, hws]
      rw [e] at hQ
      have := ih (p := p.add 1) (q := q.add 1) (m := m.write (q.add 0) [x]) (Q := Q) (E := E)
        (hx'.right.write (by
          rcases hd with h | h | h
          · exact .inl (Ne.symm h)
          · right; left; simp; omega
          · right; right; simp at h ⊢; omega)) (by unfold CanWrite; simp; omega) (by
        unfold Behind at hd ⊢; simp at hd ⊢; omega) (by
          rw [Ptr.add_zero, Mem.write_append' m q [x] _ (n := 1) rfl, Ptr.add_add]
          rwa [List.length_append, List.length_singleton] at hQ)
      rwa [he] at this

theorem remove_wp {xs : List Byte} {k m p q} {Q : Nat → Mem → Prop} {E} (hl : xs.length = k) (hx : HasBytes m p xs) (hw : CanWrite m q xs.length)
    (hd : Behind p q xs.length) (hQ : Q (stripWs xs).length (m.write q (stripWs xs))) :
    wp (remove_ascii_whitespace_fallback p k q) Q E m := by
  subst hl
  unfold remove_ascii_whitespace_fallback
  rw [wp_bind, wp_padd]
  refine ⟨hx.bound, ?_⟩
  rw [wp_bind]
  refine remove_loop_wp hx hw hd ?_
  rw [wp_offset_from]; exact hQ

/-- Text before the first whitespace is kept as it is. -/
theorem stripWs_first (xs : List Byte) : stripWs xs = xs.take (firstWs xs) ++ stripWs (xs.drop (firstWs xs)) := by
  conv => lhs; rw [← List.take_append_drop (firstWs xs) xs]
  rw [stripWs_append]
  congr 1
  unfold stripWs
  rw [List.filter_eq_self]
  intro c hc
  obtain ⟨i, hi, rfl⟩ := List.getElem_of_mem hc
  rw [List.getElem_take]
  rw [List.length_take] at hi
  have := List.not_of_lt_findIdx (p := isWs) (xs := xs) (i := i) (by unfold firstWs at hi; omega)
  simpa using this

theorem stripWs_none {xs : List Byte} (h : firstWs xs = xs.length) : stripWs xs = xs := by
  rw [stripWs_first, h]; simp [stripWs]

theorem write_existing {m : Mem} {p : Ptr} {xs : List Byte} (h : HasBytes m p xs) : m.write p xs = m := by
  refine Mem.ext' rfl rfl fun b i => ?_
  rw [Mem.write_cell]
  split
  · rename_i hc
    obtain ⟨rfl, h1, h2⟩ := hc
    have := h.get (i := i - p.off) (by omega)
    rw [show p.off + (i - p.off) = i by omega] at this
    rw [this, List.getElem?_eq_getElem (by omega)]
  · rfl

theorem remove_inplace_wp (fi : Option Isa) {m p} {xs : List Byte} {Q : Slice → Mem → Prop} {E} (hx : HasBytes m p xs)
    (hQ : Q ⟨p, (stripWs xs).length⟩ (m.write p (stripWs xs))) :
    wp (remove_ascii_whitespace_inplace fi ⟨p, xs.length⟩) Q E m := by
  have hb := hx.bound
  unfold remove_ascii_whitespace_inplace
  rw [wp_bind]
  refine find_wp fi hx ?_
  have hle := firstWs_le xs
  rw [wp_bind, wp_assert]
  refine ⟨by simpa using hle, ?_⟩
  by_cases h : firstWs xs = xs.length
  · rw [if_pos h, wp_pure]
    rw [stripWs_none h, write_existing hx] at hQ; exact hQ
  · rw [if_neg h, wp_bind, wp_padd]
    refine ⟨by simp; omega, ?_⟩
    rw [wp_bind]
    have hx' := hx.drop _ hle
    refine remove_wp (by rw [List.length_drop]) hx' (by unfold CanWrite; simp; omega) (.inr (.inl (Nat.le_refl _))) ?_
    have e := stripWs_first xs
    have hl : (xs.take (firstWs xs)).length = firstWs xs := by rw [List.length_take]; omega
    have hs := stripWs_length (xs.drop (firstWs xs))
    rw [List.length_drop] at hs
    rw [wp_bind, wp_assert]
    refine ⟨by simpa using hs, ?_⟩
    rw [if_pos (by simp; omega), wp_pure]
    rw [e, List.length_append, hl, ← Mem.write_append' m p _ _ hl, write_existing (hx.take _)] at hQ
    exact hQ

end Base64
end Simd
