import Verif.Lemmas.Base64Kernel
import Verif.Lemmas.Scalar
import Verif.Lemmas.Countdown
/-
Every implementation of base64 decoding computes `dec64`.
-/
namespace Simd

/-- The accumulation loop of the scalar base64 decoders: `y` and `flag` after the characters `xs`. -/
def accF {w : Nat} (S b : Nat) (write : Bool) (val : Byte → Byte) : Nat → List Byte → BitVec w × Byte → BitVec w × Byte
  | _, [], st => st
  | i, x :: xs, st => accF S b write val (i + 1) xs
      (if write then st.1 ||| ((val x).zeroExtend w <<< (S - i * b)) else st.1, st.2 ||| val x)

theorem fold_wp {w : Nat} {S b : Nat} {write : Bool} {val : Byte → Byte} {tbl : List Byte} (ht : tbl.length = 256)
    (hv : ∀ c : Byte, tbl.getD c.toNat 0 = val c) {m p} {xs : List Byte} (hs : HasBytes m p xs) {Q : BitVec w × Byte → Mem → Prop} {E} :
    ∀ (n i : Nat) (st : BitVec w × Byte), i + n = xs.length →
    (wp (foldFrom (fun i (st : BitVec w × Byte) => do
      let x ← rd p i
      let bits ← tread tbl x.toNat
      pure (if write then st.1 ||| (bits.zeroExtend w <<< (S - i * b)) else st.1, st.2 ||| bits)) i n st) Q E m ↔
      Q (accF S b write val i (xs.drop i) st) m)
  | 0, i, st, h => by
    rw [List.drop_of_length_le (by omega)]; simp [foldFrom, accF]
  | n + 1, i, st, h => by
    have hi : i < xs.length := by omega
    rw [foldFrom, wp_bind]
    simp only [wp_bind, wp_rd_iff hs hi, wp_pure]
    rw [wp_tread_of rfl (by rw [ht]; exact (xs[i]).isLt), hv, fold_wp ht hv hs n (i + 1) _ (by omega), List.drop_eq_getElem_cons hi, accF]

/-- Big-endian value of `b`-bit digits. -/
def digits (b : Nat) (vs : List Byte) : Nat := vs.foldl (fun a v => a * 2 ^ b + v.toNat) 0

theorem accF_flag {w} (S b : Nat) (write) (val : Byte → Byte) {B : Nat} (hB : B < 8) (hval : ∀ c, val c = 255#8 ∨ (val c).toNat < 2 ^ B) :
    ∀ (xs : List Byte) (i) (st : BitVec w × Byte), (st.2 = 255#8 ∨ st.2.toNat < 2 ^ B) →
    ((accF S b write val i xs st).2 = 255#8 ↔ st.2 = 255#8 ∨ ∃ c ∈ xs, val c = 255#8)
  | [], i, st, h => by simp [accF]
  | x :: xs, i, st, h => by
    obtain ⟨h1, h2⟩ := or_eq_ff st.2 (val x) hB h (hval x)
    rw [accF, accF_flag S b write val hB hval xs _ _ h1]
    simp only [h2, List.mem_cons, exists_eq_or_imp, or_assoc]

theorem accF_val {w} (S b : Nat) (val : Byte → Byte) :
    ∀ (xs : List Byte) (i : Nat) (st : BitVec w × Byte) (Y : Nat), (∀ c ∈ xs, (val c).toNat < 2 ^ b) → S + b ≤ w → (i + xs.length) * b ≤ S + b →
      st.1.toNat = Y * 2 ^ (S + b - i * b) →
      (accF S b true val i xs st).1.toNat = (xs.map val).foldl (fun a v => a * 2 ^ b + v.toNat) Y * 2 ^ (S + b - (i + xs.length) * b)
  | [], i, st, Y, _, _, _, h => by simpa [accF] using h
  | x :: xs, i, st, Y, hv, hw, hi, h => by
    have hx := hv x (by simp)
    have e0 : (i + 1) * b ≤ S + b := by
      refine Nat.le_trans (Nat.mul_le_mul_right b ?_) hi
      simp
    have e1 : S + b - i * b = (S - i * b) + b := by
      have : i * b + b ≤ S + b := by rw [← Nat.succ_mul]; exact e0
      omega
    have e2 : S + b - (i + 1) * b = S - i * b := by rw [Nat.succ_mul]; omega
    rw [accF]
    have := accF_val S b val xs (i + 1) (st.1 ||| ((val x).zeroExtend w <<< (S - i * b)), st.2 ||| val x) (Y * 2 ^ b + (val x).toNat)
      (fun c hc => hv c (by simp [hc])) hw (by rw [show i + 1 + xs.length = i + (x :: xs).length by simp; omega]; exact hi)
      (by
        rw [e2]
        refine acc_step _ _ (by rw [h, e1]) hx ?_
        calc (val x).toNat * 2 ^ (S - i * b) < 2 ^ b * 2 ^ (S - i * b) := (Nat.mul_lt_mul_right (Nat.two_pow_pos _)).2 hx
          _ = 2 ^ (b + (S - i * b)) := (Nat.pow_add ..).symm
          _ ≤ 2 ^ w := Nat.pow_le_pow_right (by omega) (by omega))
    simp only [if_true]
    rw [this, List.map_cons, List.foldl_cons, show i + 1 + xs.length = i + (x :: xs).length by simp; omega]

theorem extract_toNat {w} (x : BitVec w) (k : Nat) : (x.extractLsb' k 8).toNat = x.toNat / 2 ^ k % 256 := by
  rw [BitVec.extractLsb'_toNat, Nat.shiftRight_eq_div_pow]

namespace Base64
open Vs IsaId Intrin

theorem table_length (kind) : (table kind).length = 256 := by cases kind <;> decide +kernel
theorem table_val (kind) : ∀ c : Byte, (table kind).getD c.toNat 0 = (alsw kind).decode c := by
  cases kind <;> decide +kernel

/-- The value of a character, `255` outside the alphabet. -/
abbrev val (kind : Kind) : Byte → Byte := (alsw kind).decode

theorem val_cases (kind) (c : Byte) : val kind c = 255#8 ∨ (val kind c).toNat < 2 ^ 6 := by
  by_cases h : val kind c = 255#8
  · exact .inl h
  · exact .inr (alsw_lt kind c h)

theorem wp_table {kind} {c : Byte} {Q : Byte → Mem → Prop} {E m} : wp (tread (table kind) c.toNat) Q E m ↔ Q (val kind c) m := by
  rw [wp_tread_of rfl (by rw [table_length]; exact c.isLt), table_val]

theorem decode_ascii8_wp {m p q kind} {xs : List Byte} {Q : Unit → Mem → Prop} {E} (hs : HasBytes m p xs) (hl : xs.length = 8)
    (hw : CanWrite m q 8)
    (hk : ∀ ys junk, decB (val kind) 4 decG xs = some ys → ys.length = 6 → junk.length = 2 → Q () (m.write q (ys ++ junk)))
    (he : decB (val kind) 4 decG xs = none → ∀ m', SameOutside m m' q 8 → E m') :
    wp (decode_ascii8 p (some q) (table kind)) Q E m := by
  unfold CanWrite at hw
  unfold decode_ascii8
  rw [wp_bind, Option.isSome_some, fold_wp (table_length kind) (table_val kind) hs 8 0 _ (by omega)]
  have hf := accF_flag (w := 64) 58 6 true (val kind) (B := 6) (by omega) (val_cases kind) xs 0 (0, 0) (by simp)
  have hv := accF_val (w := 64) 58 6 (val kind) xs 0 (0, 0) 0
  rw [List.drop_zero]
  generalize accF 58 6 true (val kind) 0 xs (0, 0) = st at *
  obtain ⟨y, flag⟩ := st
  simp only [wp_bind, wp_storeBytes, toBE_length, wp_ensure]
  refine ⟨hw, ?_⟩
  simp only [BitVec.ofNat_eq_ofNat, show ((0#8 : Byte) = 255#8) = False by simp, false_or] at hf
  cases hd : decB (val kind) 4 decG xs with
  | none =>
    have := decB_none_iff.1 hd
    have hff := hf.2 this
    rw [hff]
    exact he hd _ (SameOutside.write rfl (Nat.le_refl _) (by simp))
  | some ys =>
    have hne : ¬ ∃ c ∈ xs, val kind c = 255#8 := fun h => by rw [decB_none_iff.2 h] at hd; simp at hd
    have hff : flag ≠ 255#8 := fun h => hne (hf.1 h)
    rw [if_pos (by simpa using hff)]
    have hyl := decB_length decG_length hd
    rw [hl] at hyl
    have hv := hv (fun c hc => (val_cases kind c).resolve_left fun h => hne ⟨c, hc, h⟩) (by omega) (by omega) (by simp)
    have hys : toBE 8 y = ys ++ [0, 0] := by
      match xs, hl with
      | [a, b, c, d, e, f, g, h], _ =>
        have lt (z) (hz : z ∈ [a, b, c, d, e, f, g, h]) : (val kind z).toNat < 64 := (val_cases kind z).resolve_left fun h => hne ⟨z, hz, h⟩
        have la := lt a (by simp); have lb := lt b (by simp); have lc := lt c (by simp); have ld := lt d (by simp)
        have le := lt e (by simp); have lf := lt f (by simp); have lg := lt g (by simp); have lh := lt h (by simp)
        unfold decB at hd
        split at hd
        · simp only [Option.some.injEq] at hd
          rw [← hd, show (List.map (val kind) [a, b, c, d, e, f, g, h]) = [val kind a, val kind b, val kind c, val kind d] ++ [val kind e, val kind f, val kind g, val kind h] from rfl,
            blocks_append (by omega) (k := 1) rfl decG_loc, blocks_one (a := 4) (by omega) rfl, blocks_one (a := 4) (by omega) rfl]
          simp only [List.map_cons, List.map_nil, List.foldl_cons, List.foldl_nil, List.length_cons, List.length_nil, Nat.reducePow, Nat.reduceAdd, Nat.reduceMul, Nat.reduceSub] at hv
          rw [show toBE 8 y = [y.extractLsb' 56 8, y.extractLsb' 48 8, y.extractLsb' 40 8, y.extractLsb' 32 8, y.extractLsb' 24 8, y.extractLsb' 16 8, y.extractLsb' 8 8, y.extractLsb' 0 8] from rfl]
          simp only [decG, List.getD_cons_zero, List.getD_cons_succ, List.cons_append, List.nil_append]
          generalize (val kind a).toNat = va at *
          generalize (val kind b).toNat = vb at *
          generalize (val kind c).toNat = vc at *
          generalize (val kind d).toNat = vd at *
          generalize (val kind e).toNat = ve at *
          generalize (val kind f).toNat = vf at *
          generalize (val kind g).toNat = vg at *
          generalize (val kind h).toNat = vh at *
          congr 1
          · apply BitVec.eq_of_toNat_eq; rw [extract_toNat, BitVec.toNat_ofNat, hv]; simp only [Nat.reducePow]; omega
          · congr 1
            · apply BitVec.eq_of_toNat_eq; rw [extract_toNat, BitVec.toNat_ofNat, hv]; simp only [Nat.reducePow]; omega
            · congr 1
              · apply BitVec.eq_of_toNat_eq; rw [extract_toNat, BitVec.toNat_ofNat, hv]; simp only [Nat.reducePow]; omega
              · congr 1
                · apply BitVec.eq_of_toNat_eq; rw [extract_toNat, BitVec.toNat_ofNat, hv]; simp only [Nat.reducePow]; omega
                · congr 1
                  · apply BitVec.eq_of_toNat_eq; rw [extract_toNat, BitVec.toNat_ofNat, hv]; simp only [Nat.reducePow]; omega
                  · congr 1
                    · apply BitVec.eq_of_toNat_eq; rw [extract_toNat, BitVec.toNat_ofNat, hv]; simp only [Nat.reducePow]; omega
                    · congr 1
                      · apply BitVec.eq_of_toNat_eq; rw [extract_toNat, hv]; simp only [Nat.reducePow]; simp; omega
                      · congr 1
                        apply BitVec.eq_of_toNat_eq; rw [extract_toNat, hv]; simp only [Nat.reducePow]; simp; omega
        · simp at hd
    rw [hys]
    exact hk ys _ hd hyl rfl

theorem decode_ascii4_wp {m p q kind} {xs : List Byte} {Q : Unit → Mem → Prop} {E} (hs : HasBytes m p xs) (hl : xs.length = 4)
    (hw : CanWrite m q 3)
    (hk : ∀ ys, decB (val kind) 4 decG xs = some ys → ys.length = 3 → Q () (m.write q ys))
    (he : decB (val kind) 4 decG xs = none → ∀ m', SameOutside m m' q 3 → E m') :
    wp (decode_ascii4 p (some q) (table kind)) Q E m := by
  unfold CanWrite at hw
  unfold decode_ascii4
  rw [wp_bind, Option.isSome_some, fold_wp (table_length kind) (table_val kind) hs 4 0 _ (by omega)]
  have hf := accF_flag (w := 32) 18 6 true (val kind) (B := 6) (by omega) (val_cases kind) xs 0 (0, 0) (by simp)
  have hv := accF_val (w := 32) 18 6 (val kind) xs 0 (0, 0) 0
  rw [List.drop_zero]
  generalize accF 18 6 true (val kind) 0 xs (0, 0) = st at *
  obtain ⟨y, flag⟩ := st
  simp only [wp_bind, wp_wrt, wp_ensure, Mem.write_size]
  refine ⟨by omega, by omega, by omega, ?_⟩
  rw [Ptr.add_zero, Mem.write_append' m q [_] [_] (n := 1) rfl]
  simp only [List.cons_append, List.nil_append]
  rw [Mem.write_append' m q [_, _] [_] (n := 2) rfl]
  simp only [List.cons_append, List.nil_append]
  simp only [BitVec.ofNat_eq_ofNat, show ((0#8 : Byte) = 255#8) = False by simp, false_or] at hf
  cases hd : decB (val kind) 4 decG xs with
  | none =>
    have := decB_none_iff.1 hd
    have hff := hf.2 this
    rw [hff]
    exact he hd _ (SameOutside.write rfl (Nat.le_refl _) (by simp))
  | some ys =>
    have hne : ¬ ∃ c ∈ xs, val kind c = 255#8 := fun h => by rw [decB_none_iff.2 h] at hd; simp at hd
    have hff : flag ≠ 255#8 := fun h => hne (hf.1 h)
    rw [if_pos (by simpa using hff)]
    have hyl := decB_length decG_length hd
    rw [hl] at hyl
    have hv := hv (fun c hc => (val_cases kind c).resolve_left fun h => hne ⟨c, hc, h⟩) (by omega) (by omega) (by simp)
    have hys : [(toBE 4 y).getD 1 0, (toBE 4 y).getD 2 0, (toBE 4 y).getD 3 0] = ys := by
      match xs, hl with
      | [a, b, c, d], _ =>
        have lt (z) (hz : z ∈ [a, b, c, d]) : (val kind z).toNat < 64 := (val_cases kind z).resolve_left fun h => hne ⟨z, hz, h⟩
        have la := lt a (by simp); have lb := lt b (by simp); have lc := lt c (by simp); have ld := lt d (by simp)
        obtain ⟨_, rfl⟩ := decB4_some.1 hd
        simp only [List.map_cons, List.map_nil, List.foldl_cons, List.foldl_nil, List.length_cons, List.length_nil, Nat.reducePow, Nat.reduceAdd, Nat.reduceMul, Nat.reduceSub] at hv
        rw [show toBE 4 y = [y.extractLsb' 24 8, y.extractLsb' 16 8, y.extractLsb' 8 8, y.extractLsb' 0 8] from rfl]
        simp only [decG, List.getD_cons_zero, List.getD_cons_succ]
        generalize (val kind a).toNat = va at *
        generalize (val kind b).toNat = vb at *
        generalize (val kind c).toNat = vc at *
        generalize (val kind d).toNat = vd at *
        congr 1
        · apply BitVec.eq_of_toNat_eq; rw [extract_toNat, BitVec.toNat_ofNat, hv]; simp only [Nat.reducePow]; omega
        · congr 1
          · apply BitVec.eq_of_toNat_eq; rw [extract_toNat, BitVec.toNat_ofNat, hv]; simp only [Nat.reducePow]; omega
          · congr 1
            apply BitVec.eq_of_toNat_eq; rw [extract_toNat, BitVec.toNat_ofNat, hv]; simp only [Nat.reducePow]; omega
    rw [hys]
    exact hk ys hd hyl

/-! Bit manipulations of the last characters. -/

theorem pack1 (a b : Byte) (ha : a.toNat < 64) (hb : b.toNat < 64) :
    ((a <<< 2) ||| (b >>> 4)) = BitVec.ofNat 8 (a.toNat * 4 + b.toNat / 16) := by
  have h1 : (a <<< 2).toNat = a.toNat * 4 := by rw [BitVec.toNat_shiftLeft, Nat.shiftLeft_eq]; omega
  have h2 : (b >>> 4).toNat = b.toNat / 16 := by rw [BitVec.toNat_ushiftRight, Nat.shiftRight_eq_div_pow]
  apply BitVec.eq_of_toNat_eq
  rw [or_add (c := a.toNat) (k := 2) _ _ (by rw [h1]; rfl) (by rw [h2]; omega), h1, h2, BitVec.toNat_ofNat]; omega

theorem pack2 (a b : Byte) (_ha : a.toNat < 64) (hb : b.toNat < 64) :
    ((a <<< 4) ||| (b >>> 2)) = BitVec.ofNat 8 (a.toNat % 16 * 16 + b.toNat / 4) := by
  have h1 : (a <<< 4).toNat = a.toNat % 16 * 16 := by rw [BitVec.toNat_shiftLeft, Nat.shiftLeft_eq]; omega
  have h2 : (b >>> 2).toNat = b.toNat / 4 := by rw [BitVec.toNat_ushiftRight, Nat.shiftRight_eq_div_pow]
  apply BitVec.eq_of_toNat_eq
  rw [or_add (c := a.toNat % 16) (k := 4) _ _ (by rw [h1]; rfl) (by rw [h2]; omega), h1, h2, BitVec.toNat_ofNat]; omega

theorem low4 : ∀ b : Byte, ((b &&& 0x0f#8) == 0#8) = decide (b.toNat % 16 = 0) := by decide +kernel
theorem low2 : ∀ b : Byte, ((b &&& 0x03#8) == 0#8) = decide (b.toNat % 4 = 0) := by decide +kernel

theorem flag2 (kind) (a b : Byte) : (val kind a ||| val kind b = 255#8) ↔ val kind a = 255#8 ∨ val kind b = 255#8 :=
  (or_eq_ff _ _ (b := 6) (by omega) (val_cases kind a) (val_cases kind b)).2
theorem flag3 (kind) (a b c : Byte) : (val kind a ||| val kind b ||| val kind c = 255#8) ↔ val kind a = 255#8 ∨ val kind b = 255#8 ∨ val kind c = 255#8 := by
  have h := or_eq_ff _ _ (b := 6) (by omega) (val_cases kind a) (val_cases kind b)
  rw [(or_eq_ff _ _ (b := 6) (by omega) h.1 (val_cases kind c)).2, h.2, or_assoc]

theorem cond2 (kind) (fg : Bool) (a b : Byte) :
    ((val kind a ||| val kind b) != 255#8 && (fg || (val kind b &&& 0x0f#8) == 0#8)) = true ↔
      val kind a ≠ 255#8 ∧ val kind b ≠ 255#8 ∧ (fg = true ∨ (val kind b).toNat % 16 = 0) := by
  rw [low4, Bool.and_eq_true, bne_iff_ne, ne_eq, flag2, Bool.or_eq_true, decide_eq_true_iff, not_or, and_assoc]
theorem cond3 (kind) (fg : Bool) (a b c : Byte) :
    ((val kind a ||| val kind b ||| val kind c) != 255#8 && (fg || (val kind c &&& 0x03#8) == 0#8)) = true ↔
      val kind a ≠ 255#8 ∧ val kind b ≠ 255#8 ∧ val kind c ≠ 255#8 ∧ (fg = true ∨ (val kind c).toNat % 4 = 0) := by
  rw [low2, Bool.and_eq_true, bne_iff_ne, ne_eq, flag3, Bool.or_eq_true, decide_eq_true_iff, not_or, not_or, and_assoc, and_assoc]

theorem decode_extra_spec {m p q kind fg} {xs : List Byte} {k : Nat} (hs : HasBytes m p xs) (hl : xs.length = k) (hk : k < 4) (hk1 : k ≠ 1)
    (hw : CanWrite m q (decLen k)) :
    Does (decode_extra k p (some q) (table kind) fg) () (dec64 (val kind) fg) xs q (decLen k) m := by
  unfold CanWrite at hw
  match k, xs, hl with
  | 0, [], _ => exact Does.pure rfl
  | 2, [a, b], _ =>
    unfold Does
    simp only [decode_extra, wp_bind, wp_loadBytes_iff hs (show [a, b].length = 2 from rfl), List.getD_cons_zero, List.getD_cons_succ,
      wp_table, wp_ensure]
    simp [decLen] at hw
    split
    · rename_i h
      have h := (cond2 kind fg a b).1 h
      have va := alsw_lt kind a h.1
      have vb := alsw_lt kind b h.2.1
      simp only [wp_wrt, Ptr.add_zero]
      refine ⟨by omega, trivial, [_], ?_, rfl, rfl⟩
      rw [dec64, decT2, if_pos h, pack1 _ _ va vb]
    · rename_i h
      refine ⟨?_, SameOutside.refl⟩
      rw [dec64, decT2, if_neg (fun hc => h ((cond2 kind fg a b).2 hc))]
  | 3, [a, b, c], _ =>
    unfold Does
    simp only [decode_extra, wp_bind, wp_loadBytes_iff hs (show [a, b, c].length = 3 from rfl), List.getD_cons_zero, List.getD_cons_succ,
      wp_table, wp_ensure]
    simp [decLen] at hw
    split
    · rename_i h
      have h := (cond3 kind fg a b c).1 h
      have va := alsw_lt kind a h.1
      have vb := alsw_lt kind b h.2.1
      have vc := alsw_lt kind c h.2.2.1
      simp only [wp_wrt, Ptr.add_zero, Mem.write_size]
      refine ⟨by omega, by omega, trivial, [_, _], ?_, rfl, Mem.write_append' m q [_] [_] (n := 1) rfl⟩
      rw [dec64, decT3, if_pos h, pack1 _ _ va vb, pack2 _ _ vb vc]
    · rename_i h
      refine ⟨?_, SameOutside.refl⟩
      rw [dec64, decT3, if_neg (fun hc => h ((cond3 kind fg a b c).2 hc))]

theorem decLen_step (k n : Nat) (h : 4 * k ≤ n) : decLen n = 3 * k + decLen (n - 4 * k) := by
  unfold decLen
  rw [show (n - 4 * k) % 4 = n % 4 by omega, show (n - 4 * k) / 4 = n / 4 - k by omega]
  omega

theorem decode_fallback_spec {m p q config} {xs : List Byte} {n : Nat} (hs : HasBytes m p xs) (hl : xs.length = n) (hn1 : n % 4 ≠ 1)
    (hw : CanWrite m q (decLen n)) (hd : Behind p q n) :
    Does (decode_fallback p q n config) () (dec64 (val config.kind) config.extra.isForgiving) xs q (decLen n) m := by
  unfold decode_fallback
  generalize config.extra.isForgiving = fg at *
  refine countdown (F := decode_loop8 (table config.kind)) (a := 8) (b := 6) (j := 2) (T := 11) (I := fun _ _ => True) (e := 0)
    (ok := fun n => n % 4 ≠ 1) (out := decLen) (by omega) (by omega)
    (fun p q n h => by rw [decode_loop8, if_neg (by omega)])
    (fun n h h1 => ⟨decLen_step 2 n (by omega), by unfold decLen; split <;> [skip; split] <;> omega, by omega⟩)
    (fun xs ys h => dec64_app _ _ (by omega)) (fun _ _ _ _ _ _ _ _ _ _ => trivial)
    ?_ ?_ n m p q xs hn1 hl hs hw (by unfold Behind at hd; unfold CdSafe; omega) trivial
  · intro m p q n xs Q E hn h1 hl hs hw hd _ hk he
    have hb := hs.bound
    have e1 : decLen n = 6 + decLen (n - 8) := decLen_step 2 n (by omega)
    have e2 : 2 ≤ decLen (n - 8) := by unfold decLen; split <;> [skip; split] <;> omega
    have e8 : (xs.take 8).length = 8 := by rw [List.length_take]; omega
    unfold CanWrite at hw
    rw [dec64_blocks _ _ 2 _ (by omega)] at hk he
    rw [decode_loop8, if_pos (by omega), wp_bind]
    refine decode_ascii8_wp (hs.take 8) e8 (by unfold CanWrite; omega) ?_ he
    intro ys junk hy hyl hjl
    simp only [wp_bind, wp_padd, Mem.write_size]
    exact ⟨by omega, by omega, hk ys junk hy hyl hjl⟩
  · intro m p q n xs hn hn1 hl hs hw hd _
    have hb := hs.bound
    have he := decLen_step (n / 4) n (by omega)
    rw [show n - 4 * (n / 4) = n % 4 by omega] at he
    unfold CanWrite at hw
    have hd : Behind p q n := by unfold CdSafe at hd; unfold Behind; omega
    refine Does.padd (by omega) ?_
    rw [show n / 4 * 4 = 4 * (n / 4) by omega]
    refine Does.seqS (k := 4 * (n / 4)) (n1 := 3 * (n / 4)) (n2 := decLen (n % 4)) hs (by omega) hw he
      (by unfold Behind at hd; omega) (dec64_app _ _ (by rw [List.length_take]; omega))
      (loop_specS (F := fun e p q => decode_loop4 (table config.kind) e p q) (ret := fun p q => (p, q)) (a := 4) (b := 3) (by omega)
        (fun e p q h => by rw [decode_loop4, if_neg h]) (spec := dec64 (val config.kind) fg) rfl (fun xs ys h => dec64_app _ _ (by omega))
        (by
          intro e m p q xs Q E he hl hs hw _ hk hf
          have hb := hs.bound
          unfold CanWrite at hw
          rw [dec64_blocks _ _ 1 _ (by omega)] at hk hf
          rw [decode_loop4, if_pos he, wp_bind]
          refine decode_ascii4_wp hs hl hw ?_ hf
          intro ys hy hyl
          simp only [wp_bind, wp_padd, Mem.write_size]
          exact ⟨by omega, by omega, hk ys hy hyl⟩)
        (n / 4) m p q _ (by rw [List.length_take]; omega) (hs.take _) (by unfold CanWrite; omega) (by unfold Behind at hd; unfold Safe; omega)) ?_
    intro m' hs' hw' _
    exact decode_extra_spec hs' (by rw [List.length_drop]; omega) (by omega) (by omega) hw'

theorem decode_simd_spec {s : Isa} (his : s ≠ .sse2) {m p q config} {xs : List Byte} {n : Nat} (hs : HasBytes m p xs) (hl : xs.length = n) (hn1 : n % 4 ≠ 1)
    (hw : CanWrite m q (decLen n)) (hd : Behind p q n) :
    Does (decode_simd s p q n config) () (dec64 (val config.kind) config.extra.isForgiving) xs q (decLen n) m := by
  unfold decode_simd
  refine countdown (F := decode_loop32 s (ALSW_CHECK_X2 config.kind) (ALSW_DECODE_X2 config.kind)) (a := 32) (b := 24) (j := 4) (T := 38) (I := fun _ _ => True) (e := 0)
    (ok := fun n => n % 4 ≠ 1) (out := decLen) (by omega) (by omega)
    (fun p q n h => by rw [decode_loop32, if_neg (by omega)])
    (fun n h h1 => ⟨decLen_step 8 n (by omega), by unfold decLen; split <;> [skip; split] <;> omega, by omega⟩)
    (fun xs ys h => dec64_app _ _ (by omega)) (fun _ _ _ _ _ _ _ _ _ _ => trivial)
    ?_ ?_ n m p q xs hn1 hl hs hw (by unfold Behind at hd; unfold CdSafe; omega) trivial
  · intro m p q n xs Q E hn h1 hl hs hw hd _ hk he
    have hb := hs.bound
    have e1 : decLen n = 24 + decLen (n - 32) := decLen_step 8 n (by omega)
    have e2 : 4 ≤ decLen (n - 32) := by unfold decLen; split <;> [skip; split] <;> omega
    have e8 : (xs.take 32).length = 32 := by rw [List.length_take]; omega
    unfold CanWrite at hw
    rw [dec64_blocks _ _ 8 _ (by omega)] at hk he
    rw [decode_loop32, if_pos (by omega)]
    obtain ⟨r, hr, hres⟩ := decode_ascii32_spec s his config.kind (xs.take 32) e8
    simp only [wp_bind, wp_v256_load (hs.take 32) e8, hr]
    cases r with
    | error u => 
      rw [wp_liftR_error]
      exact he hres _ SameOutside.refl
    | ok y =>
      simp only [DecRes] at hres
      simp only [wp_liftR_ok, wp_v128_store, wp_padd, Mem.write_size]
      refine ⟨by omega, by omega, by simp; omega, by omega, by omega, ?_⟩
      have hj := Mem.write_append_junk m q (y.lo.toList.take 12) (y.lo.toList.drop 12) y.hi.toList (by simp)
      rw [List.take_append_drop, show (y.lo.toList.take 12).length = 12 by simp] at hj
      rw [hj, ← List.take_append_drop 12 y.hi.toList, ← List.append_assoc]
      have := hk _ (y.hi.toList.drop 12) hres (by simp) (by simp)
      exact this
  · intro m p q n xs hn hn1 hl hs hw hd _
    exact decode_fallback_spec hs hl hn1 hw (by unfold CdSafe at hd; unfold Behind; omega)

theorem decode_auto_spec {i : Option Isa} (hi : i ≠ some .sse2) {m p q config} {xs : List Byte} {n : Nat} (hs : HasBytes m p xs) (hl : xs.length = n) (hn1 : n % 4 ≠ 1)
    (hw : CanWrite m q (decLen n)) (hd : Behind p q n) :
    Does (decode_auto i p q n config) () (dec64 (val config.kind) config.extra.isForgiving) xs q (decLen n) m := by
  cases i with
  | none => exact decode_fallback_spec hs hl hn1 hw hd
  | some s => exact decode_simd_spec (fun h => hi (by rw [h])) hs hl hn1 hw hd

end Base64
end Simd
