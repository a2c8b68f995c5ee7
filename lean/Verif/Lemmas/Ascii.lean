import Verif.Model.Unicode
import Verif.Lemmas.Run
import Verif.Lemmas.Lanes
/-
Every implementation of `is_ascii` tests that no byte has its high bit set.
-/
namespace Simd.Unicode
open Vs IsaId Intrin

/-- No byte has its high bit set. -/
def asciiOk (xs : List Byte) : Bool := xs.all fun c => !c.msb

theorem asciiOk_append (xs ys) : asciiOk (xs ++ ys) = (asciiOk xs && asciiOk ys) := List.all_append

theorem asciiOk_iff {xs : List Byte} : asciiOk xs = true ↔ ∀ i, i < xs.length → (xs.getD i 0).msb = false := by
  unfold asciiOk
  rw [List.all_eq_true]
  constructor
  · intro h i hi
    rw [← List.getElem_eq_getD (h := hi)]
    simpa using h _ (List.getElem_mem hi)
  · intro h c hc
    obtain ⟨i, hi, rfl⟩ := List.getElem_of_mem hc
    have := h i hi
    rw [← List.getElem_eq_getD (h := hi)] at this
    simpa using this

theorem asciiOk_spec (xs : List Byte) : asciiOk xs = decide (∀ c ∈ xs, c.toNat < 128) := by
  rw [Bool.eq_iff_iff, asciiOk, List.all_eq_true, decide_eq_true_iff]
  have key : ∀ c : Byte, (!c.msb) = true ↔ c.toNat < 128 := by
    intro c
    rw [Bool.not_eq_true', Bool.eq_false_iff, ne_eq, msb_iff]; omega
  exact ⟨fun h c hc => (key c).1 (h c hc), fun h c hc => (key c).2 (h c hc)⟩

/-- The read-only program `x` returns `b`. -/
def Tests (x : Prog Bool) (b : Bool) (m : Mem) : Prop := wp x (fun a m' => a = b ∧ m' = m) (fun _ => False) m

theorem Tests.run {x : Prog Bool} {b m} (h : Tests x b m) : x.run m = .ok b m := by
  rcases wp_run_ok h with ⟨a, m', h1, rfl, rfl⟩ | ⟨_, _, h2⟩
  · exact h1
  · exact h2.elim

theorem ult_80 (x : Byte) : x.ult 0x80 = !x.msb := by revert x; decide +kernel

theorem fold_msb (xs : List Byte) (a : Byte) : (xs.foldl (· ||| ·) a).msb = (a.msb || !asciiOk xs) := by
  induction xs generalizing a with
  | nil => simp [asciiOk]
  | cons x xs ih =>
    rw [List.foldl_cons, ih, msb_or]
    simp only [asciiOk, List.all_cons, Bool.not_and, Bool.not_not, Bool.or_assoc]

theorem fallback_loop_wp : ∀ {k m p xs ans} {Q : Byte → Mem → Prop} {E}, xs.length = k → HasBytes m p xs → Q (xs.foldl (· ||| ·) ans) m →
    wp (is_ascii_fallback_loop (p.off + k) p ans) Q E m := by
  intro k
  induction k with
  | zero =>
    intro m p xs ans Q E hl hx hQ
    have := List.length_eq_zero_iff.1 hl
    subst this
    rw [is_ascii_fallback_loop, if_neg (by omega)]; exact hQ
  | succ k ih =>
    intro m p xs ans Q E hl hx hQ
    match xs, hl with
    | x :: xs, hl =>
      have hb := hx.bound
      have hx' : HasBytes m p ([x] ++ xs) := hx
      simp only [List.length_cons] at hb hl
      rw [is_ascii_fallback_loop, if_pos (by omega)]
      simp only [wp_bind, wp_rd_iff hx (show 0 < (x :: xs).length by simp), wp_padd, List.getElem_cons_zero]
      refine ⟨by omega, ?_⟩
      have := ih (p := p.add 1) (ans := ans ||| x) (Q := Q) (E := E) (xs := xs) (by omega) hx'.right hQ
      rwa [show (p.add 1).off + k = p.off + (k + 1) by simp; omega] at this

theorem fallback_tests {m p xs k} (hx : HasBytes m p xs) (hl : xs.length = k) : Tests (is_ascii_fallback p k) (asciiOk xs) m := by
  have hb := hx.bound
  unfold is_ascii_fallback Tests
  rw [wp_bind, wp_padd]
  refine ⟨by omega, ?_⟩
  rw [wp_bind]
  refine fallback_loop_wp hl hx ?_
  rw [wp_pure, ult_80, fold_msb]
  simp

theorem any_or_list {xs : List Byte} (y : V256) (hl : xs.length = 32) :
    (anyLane 32 fun i => ((Intrin.or y (.ofList xs)).lane i).msb) = ((anyLane 32 fun i => (y.lane i).msb) || !asciiOk xs) := by
  rw [Bool.eq_iff_iff, Bool.or_eq_true, Bool.not_eq_true', Bool.eq_false_iff, ne_eq, asciiOk_iff]
  simp only [or_lane, msb_or, Vec.ofList_lane, anyLane_iff, Bool.or_eq_true, hl]
  constructor
  · rintro ⟨i, hi, h | h⟩
    · exact .inl ⟨i, hi, h⟩
    · right; intro hc; rw [hc i hi] at h; cases h
  · rintro (⟨i, hi, h⟩ | h)
    · exact ⟨i, hi, .inl h⟩
    · obtain ⟨i, h⟩ := Classical.not_forall.1 h
      obtain ⟨hi, h⟩ := Classical.not_imp.1 h
      exact ⟨i, hi, .inr (by simpa using h)⟩

theorem loop32_wp (s : Isa) : ∀ {k m p xs y} {Q : Ptr × V256 → Mem → Prop} {E}, xs.length = 32 * k → HasBytes m p xs →
    (∀ y', (anyLane 32 fun i => (y'.lane i).msb) = ((anyLane 32 fun i => (y.lane i).msb) || !asciiOk xs) → Q (p.add (32 * k), y') m) →
    wp (is_ascii_loop32 s (p.off + 32 * k) p y) Q E m := by
  intro k
  induction k with
  | zero =>
    intro m p xs y Q E hl hx hQ
    have := List.length_eq_zero_iff.1 (show xs.length = 0 by omega)
    subst this
    rw [is_ascii_loop32, if_neg (by omega)]; exact hQ y (by simp [asciiOk])
  | succ k ih =>
    intro m p xs y Q E hl hx hQ
    have hb := hx.bound
    have h32 : (xs.take 32).length = 32 := by rw [List.length_take]; omega
    rw [is_ascii_loop32, if_pos (by omega)]
    simp only [wp_bind, wp_v256_load (hx.take 32) h32, v256_or_eq, wp_liftO_some, wp_padd]
    refine ⟨by omega, ?_⟩
    have := ih (p := p.add 32) (y := Intrin.or y (.ofList (xs.take 32))) (Q := Q) (E := E) (xs := xs.drop 32) (by rw [List.length_drop]; omega)
      (hx.drop 32 (by omega)) (by
        intro y' hy'
        have := hQ y' (by
          rw [hy', any_or_list y h32, Bool.or_assoc, ← Bool.not_and, ← asciiOk_append, List.take_append_drop])
        rwa [Ptr.add_add, show 32 + 32 * k = 32 * (k + 1) by omega])
    rwa [show (p.add 32).off + 32 * k = p.off + 32 * (k + 1) by simp; omega] at this

theorem v256_tests (s : Isa) {m p xs k} (hx : HasBytes m p xs) (hl : xs.length = k) : Tests (is_ascii_simd_v256 s p k) (asciiOk xs) m := by
  have hb := hx.bound
  unfold is_ascii_simd_v256 Tests
  rw [wp_bind, wp_padd]
  refine ⟨by omega, ?_⟩
  simp only [v256_create_zero_eq, wp_bind, wp_liftO_some, u8x32_highbit_any_eq]
  rw [show k / 32 * 32 = 32 * (k / 32) by omega]
  refine loop32_wp s (xs := xs.take (32 * (k / 32))) (by rw [List.length_take]; omega) (hx.take _) ?_
  intro y' hy'
  have hz : (anyLane 32 fun i => ((set1_8 0 : V256).lane i).msb) = false := by rw [anyLane_false]; intro i _; exact (by decide : (0 : Byte).msb = false)
  rw [hz, Bool.false_or] at hy'
  refine wp_mono (fallback_tests (hx.drop (32 * (k / 32)) (by omega)) (by rw [List.length_drop]; omega)) ?_ ?_
  · rintro _ _ ⟨rfl, rfl⟩
    simp only [wp_pure, and_true, hy', Bool.not_not]
    rw [← asciiOk_append, List.take_append_drop]
  · exact fun _ h => h

/-! ### The SSE2 path -/

theorem append_beq_zero {a b : Nat} (x : BitVec a) (y : BitVec b) : (x ++ y == 0#(a + b)) = (x == 0#a && y == 0#b) := by
  rw [Bool.eq_iff_iff, Bool.and_eq_true, beq_iff_eq, beq_iff_eq, beq_iff_eq]
  simp only [← BitVec.toNat_inj, BitVec.toNat_append, BitVec.toNat_ofNat, Nat.zero_mod]
  rw [← Nat.shiftLeft_add_eq_or_of_lt y.isLt, Nat.shiftLeft_eq]
  have : 0 < 2 ^ b := Nat.two_pow_pos b
  constructor
  · intro h
    have h1 : x.toNat * 2 ^ b = 0 := by omega
    exact ⟨(Nat.mul_eq_zero.1 h1).resolve_right (by omega), by omega⟩
  · rintro ⟨h1, h2⟩; rw [h1, h2]; simp

theorem and_80 (x : Byte) : (x &&& 0x80#8 == 0#8) = !x.msb := by revert x; decide +kernel

theorem and_step {n : Nat} (x y : BitVec n) (a : Byte) : ((x ++ a) &&& (y ++ 0x80#8) == 0#(n + 8)) = ((x &&& y == 0#n) && !a.msb) := by
  rw [BitVec.and_append, append_beq_zero, and_80]

theorem check4_cat (a b c d : Byte) : check4 (a ++ b ++ c ++ d) = (!a.msb && !b.msb && !c.msb && !d.msb) := by
  have h1 := and_step (a ++ b ++ c : BitVec 24) (0x80#8 ++ 0x80#8 ++ 0x80#8 : BitVec 24) d
  have h2 := and_step (a ++ b : BitVec 16) (0x80#8 ++ 0x80#8 : BitVec 16) c
  have h3 := and_step a 0x80#8 b
  rw [← and_80 a]
  exact h1.trans (congrArg (· && !d.msb) (h2.trans (congrArg (· && !c.msb) h3)))

theorem check8_cat (a b c d e f g h : Byte) : check8 (a ++ b ++ c ++ d ++ e ++ f ++ g ++ h) =
    (!a.msb && !b.msb && !c.msb && !d.msb && !e.msb && !f.msb && !g.msb && !h.msb) := by
  have h1 := and_step (a ++ b ++ c ++ d ++ e ++ f ++ g : BitVec 56) (0x80#8 ++ 0x80#8 ++ 0x80#8 ++ 0x80#8 ++ 0x80#8 ++ 0x80#8 ++ 0x80#8 : BitVec 56) h
  have h2 := and_step (a ++ b ++ c ++ d ++ e ++ f : BitVec 48) (0x80#8 ++ 0x80#8 ++ 0x80#8 ++ 0x80#8 ++ 0x80#8 ++ 0x80#8 : BitVec 48) g
  have h3 := and_step (a ++ b ++ c ++ d ++ e : BitVec 40) (0x80#8 ++ 0x80#8 ++ 0x80#8 ++ 0x80#8 ++ 0x80#8 : BitVec 40) f
  have h4 := and_step (a ++ b ++ c ++ d : BitVec 32) (0x80#8 ++ 0x80#8 ++ 0x80#8 ++ 0x80#8 : BitVec 32) e
  have h5 := and_step (a ++ b ++ c : BitVec 24) (0x80#8 ++ 0x80#8 ++ 0x80#8 : BitVec 24) d
  have h6 := and_step (a ++ b : BitVec 16) (0x80#8 ++ 0x80#8 : BitVec 16) c
  have h7 := and_step a 0x80#8 b
  rw [← and_80 a]
  exact h1.trans (congrArg (· && !h.msb) (h2.trans (congrArg (· && !g.msb) (h3.trans (congrArg (· && !f.msb) (h4.trans (congrArg (· && !e.msb)
    (h5.trans (congrArg (· && !d.msb) (h6.trans (congrArg (· && !c.msb) h7)))))))))))

theorem or_step {n : Nat} {x y z : BitVec n} (h : x ||| y = z) (a b : Byte) : (x ++ a) ||| (y ++ b) = z ++ (a ||| b) := by
  rw [BitVec.or_append, h]

theorem check4_le {xs : List Byte} (hl : xs.length = 4) : check4 (le32 xs) = asciiOk xs := by
  match xs, hl with
  | [a, b, c, d], _ =>
    simp only [le32, List.getD_cons_zero, List.getD_cons_succ, check4_cat, asciiOk, List.all_cons, List.all_nil]
    cases a.msb <;> cases b.msb <;> cases c.msb <;> cases d.msb <;> rfl

theorem check8_le {xs : List Byte} (hl : xs.length = 8) : check8 (le64 xs) = asciiOk xs := by
  match xs, hl with
  | [a, b, c, d, e, f, g, h], _ =>
    simp only [le64, List.getD_cons_zero, List.getD_cons_succ, check8_cat, asciiOk, List.all_cons, List.all_nil]
    cases a.msb <;> cases b.msb <;> cases c.msb <;> cases d.msb <;> cases e.msb <;> cases f.msb <;> cases g.msb <;> cases h.msb <;> rfl

theorem check8_or {xs ys : List Byte} (hl : xs.length = 8) (hl' : ys.length = 8) : check8 (le64 xs ||| le64 ys) = (asciiOk xs && asciiOk ys) := by
  have e : le64 xs ||| le64 ys = le64 (List.zipWith (· ||| ·) xs ys) := by
    match xs, hl, ys, hl' with
    | [a, b, c, d, e, f, g, h], _, [a', b', c', d', e', f', g', h'], _ =>
      simp only [le64, List.getD_cons_zero, List.getD_cons_succ, List.zipWith_cons_cons]
      exact or_step (or_step (or_step (or_step (or_step (or_step (or_step rfl g g') f f') e e') d d') c c') b b') a a'
  rw [e, check8_le (by simp [hl, hl']), Bool.eq_iff_iff, Bool.and_eq_true, asciiOk_iff, asciiOk_iff, asciiOk_iff]
  have hz : ∀ i, i < 8 → ((List.zipWith (· ||| ·) xs ys).getD i 0).msb = ((xs.getD i 0).msb || (ys.getD i 0).msb) := by
    intro i hi
    rw [← List.getElem_eq_getD (h := by simp [hl, hl', hi]), ← List.getElem_eq_getD (h := by omega), ← List.getElem_eq_getD (h := by omega),
      List.getElem_zipWith, msb_or]
  simp only [List.length_zipWith, hl, hl', Nat.min_self]
  constructor
  · intro h
    refine ⟨fun i hi => ?_, fun i hi => ?_⟩
    · have := h i hi; rw [hz i hi, Bool.or_eq_false_iff] at this; exact this.1
    · have := h i hi; rw [hz i hi, Bool.or_eq_false_iff] at this; exact this.2
  · rintro ⟨h1, h2⟩ i hi
    rw [hz i hi, h1 i hi, h2 i hi]; rfl

theorem HasBytes.sub {m p} {xs : List Byte} (h : HasBytes m p xs) (k n : Nat) (hk : k ≤ xs.length) : HasBytes m (p.add k) ((xs.drop k).take n) := (h.drop k hk).take n

theorem getD_sub (xs : List Byte) {k n i : Nat} (hi : i < n) : ((xs.drop k).take n).getD i 0 = xs.getD (k + i) 0 := by
  simp only [List.getD_eq_getElem?_getD, List.getElem?_take, List.getElem?_drop, if_pos hi]

theorem tiny_loop_wp : ∀ {c k m p xs acc} {Q : Byte → Mem → Prop} {E}, xs.length = k → k ≤ c → HasBytes m p xs → Q (xs.foldl (· ||| ·) acc) m →
    wp (check_tiny_loop (p.off + k) c p acc) Q E m := by
  intro c
  induction c with
  | zero =>
    intro k m p xs acc Q E hl hk hx hQ
    have := List.length_eq_zero_iff.1 (show xs.length = 0 by omega)
    subst this
    exact hQ
  | succ c ih =>
    intro k m p xs acc Q E hl hk hx hQ
    rw [check_tiny_loop]
    match xs, hl with
    | [], hl =>
      rw [if_neg (by simp at hl; omega)]
      exact ih hl (by simp at hl; omega) hx hQ
    | x :: xs, hl =>
      have hb := hx.bound
      have hx' : HasBytes m p ([x] ++ xs) := hx
      simp only [List.length_cons] at hb hl
      rw [if_pos (by omega)]
      simp only [wp_bind, wp_rd_iff hx (show 0 < (x :: xs).length by simp), wp_padd, List.getElem_cons_zero]
      refine ⟨by omega, ?_⟩
      have := ih (k := k - 1) (p := p.add 1) (acc := acc ||| x) (Q := Q) (E := E) (xs := xs) (by omega) (by omega) hx'.right hQ
      rwa [show (p.add 1).off + (k - 1) = p.off + k by simp; omega] at this

theorem tiny_rest_tests {m p xs k} (hx : HasBytes m p xs) (hl : xs.length = k) (hk : k ≤ 3) : Tests (check_tiny_rest p k) (asciiOk xs) m := by
  have hb := hx.bound
  unfold check_tiny_rest Tests
  rw [wp_bind, wp_padd]
  refine ⟨by omega, ?_⟩
  rw [wp_bind]
  refine tiny_loop_wp hl hk hx ?_
  rw [wp_pure, ult_80, fold_msb]
  simp

theorem tiny_tests {m p xs k} (hx : HasBytes m p xs) (hl : xs.length = k) (hk : k ≤ 8) : Tests (check_tiny p k) (asciiOk xs) m := by
  have hb := hx.bound
  unfold check_tiny
  split
  · rename_i h8
    subst h8
    unfold Tests
    rw [wp_bind, wp_loadBytes_iff hx hl, wp_pure, check8_le hl]
    exact ⟨rfl, rfl⟩
  · split
    · have h4 : (xs.take 4).length = 4 := by rw [List.length_take]; omega
      unfold Tests
      rw [wp_bind, wp_loadBytes_iff (hx.take 4) h4, check4_le h4]
      have hs : asciiOk xs = (asciiOk (xs.take 4) && asciiOk (xs.drop 4)) := by rw [← asciiOk_append, List.take_append_drop]
      split
      · rename_i h
        rw [wp_pure]
        simp at h
        simp [hs, h]
      · rename_i h
        simp at h
        rw [wp_bind, wp_padd]
        refine ⟨by omega, ?_⟩
        rw [hs, h, Bool.true_and]
        exact tiny_rest_tests (hx.drop 4 (by omega)) (by rw [List.length_drop]; omega) (by omega)
    · exact tiny_rest_tests hx hl (by omega)

theorem short_tests {m p xs k} (hx : HasBytes m p xs) (hl : xs.length = k) (h9 : 9 ≤ k) (hk : k ≤ 16) : Tests (check_short p k) (asciiOk xs) m := by
  have hb := hx.bound
  have h8 : (xs.take 8).length = 8 := by rw [List.length_take]; omega
  have h8' : ((xs.drop (k - 8)).take 8).length = 8 := by rw [List.length_take, List.length_drop]; omega
  unfold check_short Tests
  simp only [wp_bind, wp_loadBytes_iff (hx.take 8) h8, wp_assert, wp_padd, wp_loadBytes_iff (HasBytes.sub hx (k - 8) 8 (by omega)) h8', wp_pure,
    check8_or h8 h8', and_true]
  refine ⟨by simp; omega, by omega, ?_⟩
  rw [Bool.eq_iff_iff, Bool.and_eq_true, asciiOk_iff, asciiOk_iff, asciiOk_iff, h8, h8', hl]
  have e1 : ∀ i, i < 8 → (xs.take 8).getD i 0 = xs.getD i 0 := by
    intro i hi; have := getD_sub xs (k := 0) hi; rwa [List.drop_zero, Nat.zero_add] at this
  constructor
  · rintro ⟨h1, h2⟩ i hi
    by_cases hc : i < 8
    · rw [← e1 i hc]; exact h1 i hc
    · have := h2 (i - (k - 8)) (by omega)
      rwa [getD_sub _ (by omega), show k - 8 + (i - (k - 8)) = i by omega] at this
  · intro h
    refine ⟨fun i hi => ?_, fun i hi => ?_⟩
    · rw [e1 i hi]; exact h i (by omega)
    · rw [getD_sub _ hi]; exact h _ (by omega)

theorem or_load_wp {c p k x m xs} {Q : V128 → Mem → Prop} {E} (hx : HasBytes m p xs) (hk : c = true → k + 16 ≤ xs.length) :
    wp (or_load c p k x) Q E m ↔ Q (if c then Intrin.or x (.ofList ((xs.drop k).take 16)) else x) m := by
  unfold or_load
  cases c with
  | false => exact Iff.rfl
  | true =>
    have hk := hk rfl
    have hb := hx.bound
    have h16 : ((xs.drop k).take 16).length = 16 := by rw [List.length_take, List.length_drop]; omega
    simp only [if_true, wp_bind, wp_padd, wp_loadBytes_iff (HasBytes.sub hx k 16 (by omega)) h16, wp_pure]
    exact ⟨fun h => h.2, fun h => ⟨by omega, h⟩⟩

theorem check16_iff (x : V128) : check16 x = true ↔ ∀ i, i < 16 → (x.lane i).msb = false := by
  unfold check16
  rw [movemask_eq_zero, Bool.not_eq_true', anyLane_false]

theorem medium_tests {m p xs k} (hx : HasBytes m p xs) (hl : xs.length = k) (h17 : 17 ≤ k) (hk : k < 64) : Tests (check_medium p k) (asciiOk xs) m := by
  have h16 : (xs.take 16).length = 16 := by rw [List.length_take]; omega
  unfold check_medium Tests
  simp only [wp_bind, wp_loadBytes_iff (hx.take 16) h16, wp_assert]
  rw [or_load_wp hx (by simp; omega), or_load_wp hx (by simp; omega), or_load_wp hx (by simp; omega), wp_pure]
  refine ⟨by simp; omega, ?_, rfl⟩
  have e1 : ∀ i, i < 16 → (xs.take 16).getD i 0 = xs.getD i 0 := by
    intro i hi; have := getD_sub xs (k := 0) hi; rwa [List.drop_zero, Nat.zero_add] at this
  rw [Bool.eq_iff_iff, check16_iff, asciiOk_iff, hl, if_pos rfl]
  have hlane : ∀ i, i < 16 → (((Intrin.or (if decide (48 ≤ k) = true then Intrin.or (if decide (32 ≤ k) = true then Intrin.or (Vec.ofList (xs.take 16) : V128) (.ofList ((xs.drop 16).take 16)) else .ofList (xs.take 16)) (.ofList ((xs.drop 32).take 16)) else if decide (32 ≤ k) = true then Intrin.or (Vec.ofList (xs.take 16) : V128) (.ofList ((xs.drop 16).take 16)) else .ofList (xs.take 16)) (.ofList ((xs.drop (k - 16)).take 16))).lane i).msb = false ↔
      (xs.getD i 0).msb = false ∧ (32 ≤ k → (xs.getD (16 + i) 0).msb = false) ∧ (48 ≤ k → (xs.getD (32 + i) 0).msb = false) ∧ (xs.getD (k - 16 + i) 0).msb = false) := by
    intro i hi
    by_cases h32 : 32 ≤ k <;> by_cases h48 : 48 ≤ k <;>
      simp only [h32, h48, decide_true, decide_false, if_true, Bool.false_eq_true, if_false, or_lane, Vec.ofList_lane, msb_or, e1 i hi, getD_sub _ hi,
        Bool.or_eq_false_iff, true_implies, false_implies, true_and, and_assoc]
  constructor
  · intro h i hi
    by_cases h1 : i < 16
    · exact ((hlane i h1).1 (h i h1)).1
    · by_cases h2 : k - 16 ≤ i
      · have := ((hlane (i - (k - 16)) (by omega)).1 (h _ (by omega))).2.2.2
        rwa [show k - 16 + (i - (k - 16)) = i by omega] at this
      · by_cases h3 : i < 32
        · have := ((hlane (i - 16) (by omega)).1 (h _ (by omega))).2.1 (by omega)
          rwa [show 16 + (i - 16) = i by omega] at this
        · have := ((hlane (i - 32) (by omega)).1 (h _ (by omega))).2.2.1 (by omega)
          rwa [show 32 + (i - 32) = i by omega] at this
  · intro h i hi
    exact (hlane i hi).2 ⟨h i (by omega), fun h32 => h _ (by omega), fun h48 => h _ (by omega), h _ (by omega)⟩

theorem long_loop_wp : ∀ {k m p xs} {Q : Option Ptr → Mem → Prop} {E}, xs.length = 64 * k → HasBytes m p xs →
    (if asciiOk xs then Q (some (p.add (64 * k))) m else Q none m) → wp (check_long_loop (p.off + 64 * k) p) Q E m := by
  intro k
  induction k with
  | zero =>
    intro m p xs Q E hl hx hQ
    have := List.length_eq_zero_iff.1 (show xs.length = 0 by omega)
    subst this
    rw [check_long_loop, if_neg (by omega)]; exact hQ
  | succ k ih =>
    intro m p xs Q E hl hx hQ
    have hb := hx.bound
    have h64 : (xs.take 64).length = 64 := by rw [List.length_take]; omega
    have hs : asciiOk xs = (asciiOk (xs.take 64) && asciiOk (xs.drop 64)) := by rw [← asciiOk_append, List.take_append_drop]
    rw [check_long_loop, if_pos (by omega), wp_bind, wp_loadBytes_iff (hx.take 64) h64]
    have hc : check16 (Intrin.or (Intrin.or (.ofList (xs.take 64)) (.ofList ((xs.take 64).drop 16))) (Intrin.or (.ofList ((xs.take 64).drop 32)) (.ofList ((xs.take 64).drop 48)))) =
        asciiOk (xs.take 64) := by
      rw [Bool.eq_iff_iff, check16_iff, asciiOk_iff, h64]
      generalize xs.take 64 = zs
      have hd : ∀ a i, (zs.drop a).getD i 0 = zs.getD (a + i) 0 := by
        intro a i; simp only [List.getD_eq_getElem?_getD, List.getElem?_drop]
      simp only [or_lane, Vec.ofList_lane, msb_or, hd, Bool.or_eq_false_iff]
      constructor
      · intro h i hi
        by_cases h1 : i < 16
        · exact (h i h1).1.1
        · by_cases h2 : i < 32
          · have := (h (i - 16) (by omega)).1.2
            rwa [show 16 + (i - 16) = i by omega] at this
          · by_cases h3 : i < 48
            · have := (h (i - 32) (by omega)).2.1
              rwa [show 32 + (i - 32) = i by omega] at this
            · have := (h (i - 48) (by omega)).2.2
              rwa [show 48 + (i - 48) = i by omega] at this
      · intro h i hi
        exact ⟨⟨h i (by omega), h _ (by omega)⟩, h _ (by omega), h _ (by omega)⟩
    dsimp only
    rw [hc]
    split <;> rename_i h
    · rw [wp_pure]
      simp at h
      rwa [hs, h, Bool.false_and, if_neg (by simp)] at hQ
    · simp at h
      rw [hs, h, Bool.true_and] at hQ
      rw [wp_bind, wp_padd]
      refine ⟨by omega, ?_⟩
      have := ih (p := p.add 64) (Q := Q) (E := E) (xs := xs.drop 64) (by rw [List.length_drop]; omega) (hx.drop 64 (by omega))
        (by rwa [Ptr.add_add, show 64 + 64 * k = 64 * (k + 1) by omega])
      rwa [show (p.add 64).off + 64 * k = p.off + 64 * (k + 1) by simp; omega] at this

theorem long_tests {m p xs k} (hx : HasBytes m p xs) (hl : xs.length = k) : Tests (check_long p k) (asciiOk xs) m := by
  have hb := hx.bound
  have hs : asciiOk xs = (asciiOk (xs.take (64 * (k / 64))) && asciiOk (xs.drop (64 * (k / 64)))) := by rw [← asciiOk_append, List.take_append_drop]
  unfold check_long Tests
  rw [wp_bind, wp_padd]
  refine ⟨by omega, ?_⟩
  rw [wp_bind, show k / 64 * 64 = 64 * (k / 64) by omega]
  refine long_loop_wp (xs := xs.take (64 * (k / 64))) (by rw [List.length_take]; omega) (hx.take _) ?_
  have hx' := hx.drop (64 * (k / 64)) (by omega)
  have hl' : (xs.drop (64 * (k / 64))).length = k % 64 := by rw [List.length_drop]; omega
  split <;> rename_i h
  · rw [hs, h, Bool.true_and]
    dsimp only
    split
    · rw [List.length_eq_zero_iff.1 (hl'.trans (by assumption))]; exact ⟨rfl, rfl⟩
    · split
      · exact tiny_tests hx' hl' (by omega)
      · split
        · exact short_tests hx' hl' (by omega) (by omega)
        · exact medium_tests hx' hl' (by omega) (by omega)
  · simp at h
    rw [hs, h]; exact ⟨rfl, rfl⟩

theorem sse2_tests {m p xs k} (hx : HasBytes m p xs) (hl : xs.length = k) : Tests (is_ascii_sse2 p k) (asciiOk xs) m := by
  unfold is_ascii_sse2
  split
  · exact tiny_tests hx hl (by omega)
  · split
    · exact short_tests hx hl (by omega) (by omega)
    · split
      · exact medium_tests hx hl (by omega) (by omega)
      · exact long_tests hx hl

theorem is_ascii_tests (x64 : Bool) (i : Option Isa) {m p xs k} (hx : HasBytes m p xs) (hl : xs.length = k) : Tests (is_ascii_auto x64 i p k) (asciiOk xs) m := by
  cases i with
  | none => exact fallback_tests hx hl
  | some s =>
    show Tests (is_ascii_simd x64 s p k) _ _
    unfold is_ascii_simd
    split
    · exact sse2_tests hx hl
    · exact v256_tests s hx hl

end Simd.Unicode
