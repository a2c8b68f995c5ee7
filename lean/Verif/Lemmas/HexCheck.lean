import Verif.Lemmas.HexDecode
/-
Every implementation of hex checking accepts exactly the hex texts.
-/
namespace Simd
namespace Hex
open Vs IsaId Intrin

/-- All characters have a value. -/
def hexOk (xs : List Byte) : Bool := xs.all fun c => parse_hex c != 255#8

theorem hexOk_append (xs ys) : hexOk (xs ++ ys) = (hexOk xs && hexOk ys) := List.all_append

theorem check_short_loop_wp : ∀ {k m p xs flag} {Q : Byte → Mem → Prop} {E}, xs.length = k → HasBytes m p xs → Q (orAll flag xs) m →
    wp (check_short_loop (p.off + k) p flag) Q E m := by
  intro k
  induction k with
  | zero =>
    intro m p xs flag Q E hl hx hQ
    have := List.length_eq_zero_iff.1 hl
    subst this
    rw [check_short_loop, if_neg (by omega)]; exact hQ
  | succ k ih =>
    intro m p xs flag Q E hl hx hQ
    match xs, hl with
    | x :: xs, hl =>
      have hb := hx.bound
      have hx' : HasBytes m p ([x] ++ xs) := hx
      simp only [List.length_cons] at hb hl
      rw [check_short_loop, if_pos (by omega)]
      simp only [wp_bind, wp_rd_iff hx (show 0 < (x :: xs).length by simp), wp_padd, List.getElem_cons_zero]
      refine ⟨by omega, ?_⟩
      have := ih (p := p.add 1) (flag := flag ||| unhex x) (Q := Q) (E := E) (xs := xs) (by omega) hx'.right hQ
      rwa [show (p.add 1).off + k = p.off + (k + 1) by simp; omega] at this

theorem check_short_spec {m p xs k} (hx : HasBytes m p xs) (hl : xs.length = k) :
    Checks (check_short p k) () hexOk xs m := by
  have hb := hx.bound
  unfold check_short
  refine Checks.padd (by omega) ?_
  unfold Checks
  rw [wp_bind]
  refine check_short_loop_wp hl hx ?_
  rw [wp_ensure]
  have h := orAll_spec xs 0#8 (by simp)
  change _ = hexOk xs at h
  rw [← h]
  split <;> rename_i hc
  · exact ⟨rfl, hc, rfl⟩
  · exact ⟨by simpa using hc, rfl⟩

theorem check_short_sc_spec {m p xs k} (hx : HasBytes m p xs) (hl : xs.length = k) :
    Checks (check_short_sc p k) () hexOk xs m := by
  have hb := hx.bound
  unfold check_short_sc
  refine Checks.padd (by omega) ?_
  have := check_loop_spec (F := check_short_sc_loop) (ret := fun _ => ()) (a := 1) (by omega)
    (fun e p h => by rw [check_short_sc_loop, if_neg h]) (good := hexOk) rfl (fun xs ys _ => hexOk_append xs ys)
    (by
      intro e m p xs Q E he hl hx hk hk'
      obtain ⟨x, rfl⟩ := List.length_eq_one_iff.1 hl
      have hb := hx.bound
      rw [check_short_sc_loop, if_pos he]
      simp only [wp_bind, wp_rd_iff hx (show 0 < [x].length by simp), List.getElem_cons_zero, wp_ensure, wp_padd]
      have hok : hexOk [x] = (unhex x != 255#8) := by simp [hexOk, unhex]
      split <;> rename_i hc
      · exact ⟨by simpa using hb, hk (by rw [hok]; exact hc)⟩
      · exact hk' (by rw [hok]; exact Bool.eq_false_iff.2 hc))
    k m p xs (by omega) hx
  simpa only [Nat.one_mul] using this

theorem hex_mask (c : Byte) :
    (maskOf 8 ((c - (0x30#8 + 0x80#8)).slt (BitVec.ofInt 8 (-118))) |||
      maskOf 8 (((c &&& 0xdf#8) - (0x41#8 + 0x80#8)).slt (BitVec.ofInt 8 (-122))) != 0#8) = (parse_hex c != 255#8) := by
  revert c; decide +kernel

theorem hex_check_xn_spec {n} [Scalable n] [LawfulScalable n] (s : Isa) (xs : List Byte) (hl : xs.length = n) :
    hex_check_xn s (.ofList xs : Vec n) = some (hexOk xs) := by
  unfold hex_check_xn
  simp only [LawfulScalable.splat8_eq, LawfulScalable.sub_eq, LawfulScalable.and_eq, LawfulScalable.lt_eq, LawfulScalable.or_eq,
    Option.bind_eq_bind, Option.bind_some]
  rw [LawfulScalable.all_eq _ _ (IsMask.or (isMask_lt_i8 _ _) (isMask_lt_i8 _ _))]
  congr 1
  rw [Bool.eq_iff_iff, allLane_iff, hexOk, List.all_eq_true]
  have key : ∀ i, i < n → ((Intrin.or
      (lt_i8 (sub8 (Vec.ofList xs : Vec n) (set1_8 (0x30 + 0x80))) (set1_8 (BitVec.ofInt 8 (-118))))
      (lt_i8 (sub8 (Intrin.and (Vec.ofList xs : Vec n) (set1_8 0xdf)) (set1_8 (0x41 + 0x80))) (set1_8 (BitVec.ofInt 8 (-122))))).lane i != 0#8)
      = (parse_hex (xs.getD i 0) != 255#8) := fun i _ => hex_mask _
  constructor
  · intro h c hc
    obtain ⟨i, hi, rfl⟩ := List.getElem_of_mem hc
    have := h i (by omega)
    rw [key i (by omega), List.getD_eq_getElem?_getD, List.getElem?_eq_getElem hi] at this
    exact this
  · intro h i hi
    rw [key i hi, List.getD_eq_getElem?_getD, List.getElem?_eq_getElem (show i < xs.length by omega)]
    exact h _ (List.getElem_mem _)

theorem check_block16 {s : Isa} {m p xs} (hx : HasBytes m p xs) (hl : xs.length = 16) {Q : Unit → Mem → Prop} {E} :
    wp (do let x ← v128_load s p; let b ← liftO (hex_check_xn s x); ensure b) Q E m ↔ if hexOk xs then Q () m else E m := by
  simp only [wp_bind, wp_v128_load hx hl, hex_check_xn_spec s xs hl, wp_liftO_some, wp_ensure]

theorem check_block16_checks {s : Isa} {m p xs} (hx : HasBytes m p xs) (hl : xs.length = 16) :
    Checks (do let x ← v128_load s p; let b ← liftO (hex_check_xn s x); ensure b) () hexOk xs m := by
  unfold Checks
  rw [check_block16 hx hl]
  split <;> rename_i hc
  · exact ⟨rfl, hc, rfl⟩
  · exact ⟨Bool.eq_false_iff.2 hc, rfl⟩

theorem check_tail_spec (s : Isa) {m p xs k} (hx : HasBytes m p xs) (hl : xs.length = k) :
    Checks (check_tail s p k) () hexOk xs m := by
  unfold check_tail
  split
  · exact check_short_sc_spec hx hl
  · exact check_short_spec hx hl

theorem check_simd_spec (s : Isa) {m p xs k} (hx : HasBytes m p xs) (hl : xs.length = k) :
    Checks (check_simd s p k) () hexOk xs m := by
  have hb := hx.bound
  unfold check_simd
  split
  · split
    · exact check_block16_checks hx (by omega)
    · refine Checks.padd (by omega) ?_
      rw [show k / 32 * 32 = 32 * (k / 32) by omega]
      refine Checks.seq (k := 32 * (k / 32)) (hexOk_append _ _)
        (check_loop_spec (F := check_loop32 s) (ret := fun p => p) (a := 32) (by omega)
          (fun e p h => by rw [check_loop32, if_neg h]) rfl (fun xs ys _ => hexOk_append xs ys)
          (by
            intro e m p xs Q E he hl hx hk hk'
            have hb := hx.bound
            rw [check_loop32, if_pos he]
            simp only [wp_bind, wp_v256_load hx hl, hex_check_xn_spec s xs hl, wp_liftO_some, wp_ensure, wp_padd]
            split <;> rename_i hc
            · exact ⟨by omega, hk hc⟩
            · exact hk' (Bool.eq_false_iff.2 hc))
          (k / 32) m p _ (by rw [List.length_take]; omega) (hx.take _)) ?_
      have hx' := hx.drop (32 * (k / 32)) (by omega)
      have hl' : (xs.drop (32 * (k / 32))).length = k % 32 := by rw [List.length_drop]; omega
      have hb' := hx'.bound
      simp only []
      split
      · exact Checks.nil rfl (by omega)
      split
      · have := Checks.seq (k := 16) (hexOk_append _ _)
          (check_block16_checks (s := s) (hx'.take 16) (by rw [List.length_take]; omega))
          (f := fun _ => do
            padd (p.add (32 * (k / 32))) 16
            check_tail s ((p.add (32 * (k / 32))).add 16) (k % 32 - 16)) (r1 := ())
          (Checks.padd (by omega) (check_tail_spec s (hx'.drop 16 (by omega)) (by rw [List.length_drop]; omega)))
        unfold Checks at this ⊢
        simpa only [wp_bind] using this
      · exact check_tail_spec s hx' hl'
  · refine Checks.padd (by omega) ?_
    rw [show k / 16 * 16 = 16 * (k / 16) by omega]
    refine Checks.seq (k := 16 * (k / 16)) (hexOk_append _ _)
      (check_loop_spec (F := check_loop16 s) (ret := fun p => p) (a := 16) (by omega)
        (fun e p h => by rw [check_loop16, if_neg h]) rfl (fun xs ys _ => hexOk_append xs ys)
        (by
          intro e m p xs Q E he hl hx hk hk'
          have hb := hx.bound
          rw [check_loop16, if_pos he]
          simp only [wp_bind, wp_v128_load hx hl, hex_check_xn_spec s xs hl, wp_liftO_some, wp_ensure, wp_padd]
          split <;> rename_i hc
          · exact ⟨by omega, hk hc⟩
          · exact hk' (Bool.eq_false_iff.2 hc))
        (k / 16) m p _ (by rw [List.length_take]; omega) (hx.take _)) ?_
    have hx' := hx.drop (16 * (k / 16)) (by omega)
    have hl' : (xs.drop (16 * (k / 16))).length = k % 16 := by rw [List.length_drop]; omega
    simp only []
    split
    · exact Checks.nil rfl (by omega)
    · exact check_tail_spec s hx' hl'

theorem check_auto_spec (i : Option Isa) {m p xs k} (hx : HasBytes m p xs) (hl : xs.length = k) :
    Checks (check_auto i p k) () hexOk xs m := by
  cases i with
  | none => exact check_short_spec hx hl
  | some s => exact check_simd_spec s hx hl

end Hex
end Simd
