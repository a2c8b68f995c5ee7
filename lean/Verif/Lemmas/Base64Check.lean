import Verif.Lemmas.Base64Decode
/-
Every implementation of base64 checking accepts exactly what the decoders accept.
-/
namespace Simd.Base64
open Vs IsaId Intrin

/-- The texts the decoders accept. -/
def good (kind : Kind) (fg : Bool) (xs : List Byte) : Bool := (dec64 (val kind) fg xs).isSome

theorem good_append (kind fg) {xs ys : List Byte} (h : xs.length % 4 = 0) :
    good kind fg (xs ++ ys) = (good kind fg xs && good kind fg ys) := by
  unfold good
  rw [dec64_app _ _ h]
  cases dec64 (val kind) fg xs <;> cases dec64 (val kind) fg ys <;> rfl

theorem good_block (kind fg) {xs : List Byte} (k : Nat) (h : xs.length = 4 * k) :
    (good kind fg xs = false ↔ ∃ c ∈ xs, val kind c = 255#8) := by
  unfold good
  rw [dec64_blocks _ _ k _ h, ← decB_none_iff (a := 4) (g := decG)]
  cases decB (val kind) 4 decG xs <;> simp

theorem check_ascii8_wp {m p kind fg} {xs : List Byte} {Q : Unit → Mem → Prop} {E} (hs : HasBytes m p xs) (hl : xs.length = 8) :
    wp (decode_ascii8 p none (table kind)) Q E m ↔ if good kind fg xs then Q () m else E m := by
  unfold decode_ascii8
  rw [wp_bind, Option.isSome_none, fold_wp (table_length kind) (table_val kind) hs 8 0 _ (by omega)]
  have hf := accF_flag (w := 64) 58 6 false (val kind) (B := 6) (by omega) (val_cases kind) xs 0 (0, 0) (by simp)
  rw [List.drop_zero]
  generalize accF 58 6 false (val kind) 0 xs (0, 0) = st at *
  obtain ⟨y, flag⟩ := st
  simp only [BitVec.ofNat_eq_ofNat, show ((0#8 : Byte) = 255#8) = False by simp, false_or] at hf
  rw [← good_block kind fg 2 (by omega)] at hf
  simp only [wp_ensure]
  cases hg : good kind fg xs <;> simp [hg] at hf ⊢ <;> simp [hf]

theorem check_ascii4_wp {m p kind fg} {xs : List Byte} {Q : Unit → Mem → Prop} {E} (hs : HasBytes m p xs) (hl : xs.length = 4) :
    wp (decode_ascii4 p none (table kind)) Q E m ↔ if good kind fg xs then Q () m else E m := by
  unfold decode_ascii4
  rw [wp_bind, Option.isSome_none, fold_wp (table_length kind) (table_val kind) hs 4 0 _ (by omega)]
  have hf := accF_flag (w := 32) 18 6 false (val kind) (B := 6) (by omega) (val_cases kind) xs 0 (0, 0) (by simp)
  rw [List.drop_zero]
  generalize accF 18 6 false (val kind) 0 xs (0, 0) = st at *
  obtain ⟨y, flag⟩ := st
  simp only [BitVec.ofNat_eq_ofNat, show ((0#8 : Byte) = 255#8) = False by simp, false_or] at hf
  rw [← good_block kind fg 1 (by omega)] at hf
  simp only [wp_ensure]
  cases hg : good kind fg xs <;> simp [hg] at hf ⊢ <;> simp [hf]

theorem check_extra_spec {m p kind fg} {xs : List Byte} {k : Nat} (hs : HasBytes m p xs) (hl : xs.length = k) (hk : k < 4) (hk1 : k ≠ 1) :
    Checks (decode_extra k p none (table kind) fg) () (good kind fg) xs m := by
  match k, xs, hl with
  | 0, [], _ => exact Checks.nil rfl rfl
  | 2, [a, b], _ =>
    unfold Checks
    simp only [decode_extra, wp_bind, wp_loadBytes_iff hs (show [a, b].length = 2 from rfl), List.getD_cons_zero, List.getD_cons_succ,
      wp_table, wp_ensure, wp_pure]
    split
    · rename_i h
      have h := (cond2 kind fg a b).1 h
      refine ⟨trivial, ?_, trivial⟩
      rw [good, dec64, decT2, if_pos h]; rfl
    · rename_i h
      refine ⟨?_, trivial⟩
      rw [good, dec64, decT2, if_neg (fun hc => h ((cond2 kind fg a b).2 hc))]; rfl
  | 3, [a, b, c], _ =>
    unfold Checks
    simp only [decode_extra, wp_bind, wp_loadBytes_iff hs (show [a, b, c].length = 3 from rfl), List.getD_cons_zero, List.getD_cons_succ,
      wp_table, wp_ensure, wp_pure]
    split
    · rename_i h
      have h := (cond3 kind fg a b c).1 h
      refine ⟨trivial, ?_, trivial⟩
      rw [good, dec64, decT3, if_pos h]; rfl
    · rename_i h
      refine ⟨?_, trivial⟩
      rw [good, dec64, decT3, if_neg (fun hc => h ((cond3 kind fg a b c).2 hc))]; rfl

theorem check_fallback_spec {m p config} {xs : List Byte} {n : Nat} (hs : HasBytes m p xs) (hl : xs.length = n) (hn1 : n % 4 ≠ 1) :
    Checks (check_fallback p n config) () (good config.kind config.extra.isForgiving) xs m := by
  unfold check_fallback
  generalize config.extra.isForgiving = fg at *
  refine check_countdown (F := check_loop8 (table config.kind)) (a := 8) (T := 11) (ok := fun n => n % 4 ≠ 1) (by omega) (by omega)
    (fun p n h => by rw [check_loop8, if_neg (by omega)]) (fun n _ h => by omega) (fun xs ys h => good_append _ _ (by omega)) ?_ ?_
    n m p xs hn1 hl hs
  · intro m p n xs Q E hn hl hs hk he
    have hb := hs.bound
    rw [check_loop8, if_pos (by omega), wp_bind, check_ascii8_wp (fg := fg) (hs.take 8) (by rw [List.length_take]; omega)]
    split
    · rename_i hg
      simp only [wp_bind, wp_padd]
      exact ⟨by omega, hk hg⟩
    · rename_i hg
      exact he (by simpa using hg)
  · intro m p n xs _ hn1 hl hs
    refine check_countdown (F := check_loop4 (table config.kind)) (a := 4) (T := 4) (ok := fun n => n % 4 ≠ 1) (by omega) (by omega)
      (fun p n h => by rw [check_loop4, if_neg (by omega)]) (fun n _ h => by omega) (fun xs ys h => good_append _ _ (by omega)) ?_ ?_
      n m p xs hn1 hl hs
    · intro m p n xs Q E hn hl hs hk he
      have hb := hs.bound
      rw [check_loop4, if_pos (by omega), wp_bind, check_ascii4_wp (fg := fg) (hs.take 4) (by rw [List.length_take]; omega)]
      split
      · rename_i hg
        simp only [wp_bind, wp_padd]
        exact ⟨by omega, hk hg⟩
      · rename_i hg
        exact he (by simpa using hg)
    · intro m p n xs h4 hn1 hl hs
      exact check_extra_spec hs hl h4 (by omega)

theorem check_simd_spec {s : Isa} (his : s ≠ .sse2) {m p config} {xs : List Byte} {n : Nat} (hs : HasBytes m p xs) (hl : xs.length = n) (hn1 : n % 4 ≠ 1) :
    Checks (check_simd s p n config) () (good config.kind config.extra.isForgiving) xs m := by
  unfold check_simd
  refine check_countdown (F := check_loop32 s (ALSW_CHECK_X2 config.kind)) (a := 32) (T := 38) (ok := fun n => n % 4 ≠ 1) (by omega) (by omega)
    (fun p n h => by rw [check_loop32, if_neg (by omega)]) (fun n _ h => by omega) (fun xs ys h => good_append _ _ (by omega)) ?_ ?_
    n m p xs hn1 hl hs
  · intro m p n xs Q E hn hl hs hk he
    have hb := hs.bound
    have e32 : (xs.take 32).length = 32 := by rw [List.length_take]; omega
    have hgb := good_block config.kind config.extra.isForgiving (xs := xs.take 32) 8 (by omega)
    rw [check_loop32, if_pos (by omega)]
    have hall : (allLane 32 fun i => val config.kind ((Vec.ofList (xs.take 32) : Vec 32).lane i) != 255#8) = good config.kind config.extra.isForgiving (xs.take 32) := by
      rw [← all_good (val config.kind) (xs.take 32) e32] at hgb
      exact (Bool.eq_iff_iff.2 (by rw [← Bool.not_eq_false, ← Bool.not_eq_false, hgb])).symm
    simp only [wp_bind, wp_v256_load (hs.take 32) e32, check_ascii_xn_spec (alsw_good config.kind) (check := ALSW_CHECK_X2 config.kind)
      (holds32 _) (holds32 _) s his (.ofList (xs.take 32)), wp_liftO_some, wp_ensure, wp_padd, hall]
    split
    · rename_i hg
      exact ⟨by omega, hk hg⟩
    · rename_i hg
      exact he (by simpa using hg)
  · intro m p n xs h4 hn1 hl hs
    exact check_fallback_spec hs hl hn1

theorem check_auto_spec {i : Option Isa} (hi : i ≠ some .sse2) {m p config} {xs : List Byte} {n : Nat} (hs : HasBytes m p xs) (hl : xs.length = n) (hn1 : n % 4 ≠ 1) :
    Checks (check_auto i p n config) () (good config.kind config.extra.isForgiving) xs m := by
  cases i with
  | none => exact check_fallback_spec hs hl hn1
  | some s => exact check_simd_spec (fun h => hi (by rw [h])) hs hl hn1

end Simd.Base64
