import Verif.Lemmas.HexKernel
/-
Every implementation of hex encoding writes `hexEnc`.
-/
namespace Simd
namespace Hex
open Vs IsaId Intrin

/-- `hexEnc` as a total block function. -/
def encS (case : AsciiCase) (xs : List Byte) : Option (List Byte) := some (hexEnc case xs)

theorem encS_nil (case) : encS case [] = some [] := by simp [encS]
theorem encS_append (case) (xs ys) : encS case (xs ++ ys) = (encS case xs).bind fun u => (encS case ys).map (u ++ ·) := by
  simp [encS, hexEnc_append]

theorem charset_length (case) : (charset case).length = 16 := by cases case <;> rfl

theorem encode_bits_wp {m p q x case} {Q : Unit → Mem → Prop} {E} (hs : HasBytes m p [x]) (hw : CanWrite m q 2) :
    wp (encode_bits p q (charset case)) Q E m ↔ Q () (m.write q (hexEnc case [x])) := by
  have hb := shr4_lt x
  have hb' := and15_lt x
  unfold CanWrite at hw
  simp only [encode_bits, wp_bind, wp_rd_iff hs (show 0 < [x].length by simp), List.getElem_cons_zero, wp_tread, wp_wrt,
    Ptr.add_zero, Mem.write_size]
  rw [hexEnc, blocks_one (a := 1) (xs := [x]) (by omega) rfl]
  simp only [encG, List.getD_cons_zero]
  have h1 : (x >>> 4).toNat < (charset case).length := by rw [charset_length]; exact hb
  have h2 : (x &&& 15#8).toNat < (charset case).length := by rw [charset_length]; exact hb'
  constructor
  · rintro ⟨_, _, _, _, h⟩
    rw [Mem.write_append' m q [_] [_] (n := 1) rfl] at h
    rw [← List.getElem_eq_getD (h := h1), ← List.getElem_eq_getD (h := h2)]; exact h
  · intro h
    refine ⟨h1, h2, by omega, by omega, ?_⟩
    rw [Mem.write_append' m q [_] [_] (n := 1) rfl]
    rw [← List.getElem_eq_getD (h := h1), ← List.getElem_eq_getD (h := h2)] at h; exact h

theorem encode_short_spec (case : AsciiCase) {m p q xs k} (hs : HasBytes m p xs) (hl : xs.length = k)
    (hw : CanWrite m q (2 * k)) (hd : Apart p q k (2 * k)) :
    Does (encode_short p k q (charset case)) () (encS case) xs q (2 * k) m := by
  unfold encode_short
  refine Does.padd (by have := hs.bound; omega) ?_
  have := loop_specS (F := fun e p q => encode_short_loop e p q (charset case)) (ret := fun _ _ => ()) (a := 1) (b := 2) (by omega)
    (fun e p q h => by rw [encode_short_loop, if_neg h]) (spec := encS case) (encS_nil case) (fun xs ys _ => encS_append case xs ys)
    (by
      intro e m p q xs Q E he hl hs hw _ hk _
      obtain ⟨x, rfl⟩ := List.length_eq_one_iff.1 hl
      have hb := hs.bound
      unfold CanWrite at hw
      rw [encode_short_loop, if_pos he, wp_bind, encode_bits_wp hs hw]
      simp only [wp_bind, wp_padd, Mem.write_size]
      exact ⟨by simpa using hb, by omega, hk _ rfl (by simp [hexEnc_length])⟩)
    k m p q xs (by omega) hs hw (by unfold Apart at hd; unfold Safe; omega)
  simpa only [Nat.one_mul] using this

theorem encode_long_inner_wp (case : AsciiCase) : ∀ {k m p q xs} {Q : Ptr × Ptr → Mem → Prop} {E}, xs.length = k → HasBytes m p xs →
    CanWrite m q (2 * k) → Apart p q k (2 * k) → Q (p.add k, q.add (2 * k)) (m.write q (hexEnc case xs)) →
    wp (encode_long_inner (charset case) k p q) Q E m := by
  intro k
  induction k with
  | zero =>
    intro m p q xs Q E hl hs hw hd hQ
    have : xs = [] := List.length_eq_zero_iff.1 hl
    subst this
    simpa [encode_long_inner] using hQ
  | succ k ih =>
    intro m p q xs Q E hl hs hw hd hQ
    cases xs with
    | nil => simp at hl
    | cons x xs =>
      have hb := hs.bound
      have hs' : HasBytes m p ([x] ++ xs) := hs
      unfold CanWrite at hw
      simp only [List.length_cons] at hl hb
      rw [encode_long_inner, wp_bind, encode_bits_wp hs'.left (by unfold CanWrite; omega)]
      simp only [wp_bind, wp_padd, Mem.write_size]
      refine ⟨by omega, by omega, ?_⟩
      refine ih (xs := xs) (by omega) (hs'.right.write (by unfold Apart at hd; simp [hexEnc_length]; omega)) (by unfold CanWrite; simp; omega) (by unfold Apart at hd ⊢; simp; omega) ?_
      rw [Mem.write_append' m q _ _ (by simp [hexEnc_length]), ← hexEnc_append]
      simpa [Nat.mul_succ, Nat.add_comm] using hQ

theorem encode_long_spec (case : AsciiCase) {m p q xs k} (hs : HasBytes m p xs) (hl : xs.length = k)
    (hw : CanWrite m q (2 * k)) (hd : Apart p q k (2 * k)) :
    Does (encode_long p k q case) () (encS case) xs q (2 * k) m := by
  have hb := hs.bound
  unfold CanWrite at hw
  unfold encode_long
  refine Does.padd (by omega) ?_
  rw [show k / 8 * 8 = 8 * (k / 8) by omega]
  refine Does.seqS (k := 8 * (k / 8)) (n1 := 16 * (k / 8)) (n2 := 2 * (k % 8)) hs (by omega) hw (by omega) (by unfold Apart at hd; omega) (encS_append _ _ _)
    (loop_specS (F := fun e p q => encode_long_loop e p q (charset case)) (ret := fun p q => (p, q)) (a := 8) (b := 16) (by omega)
      (fun e p q h => by rw [encode_long_loop, if_neg h]) (encS_nil case) (fun xs ys _ => encS_append case xs ys)
      (by
        intro e m p q xs Q E he hl hs hw hd' hk _
        rw [encode_long_loop, if_pos he, wp_bind]
        exact encode_long_inner_wp case hl hs hw (by unfold Safe at hd'; unfold Apart; omega)
          (hk _ rfl (by simp [hexEnc_length, hl])))
      (k / 8) m p q _ (by rw [List.length_take]; omega) (hs.take _) (by unfold CanWrite; omega) (by unfold Apart at hd; unfold Safe; omega)) ?_
  intro m' hs' hw' _
  exact encode_short_spec case hs' (by rw [List.length_drop]; omega) hw' (by unfold Apart at hd ⊢; simp; omega)

/-- 16 bytes through `encode_bytes16`. -/
theorem encode16_step {s : Isa} (hs : s ≠ .sse2) {case m p q xs} {f : Unit → Prog Unit} {Q : Unit → Mem → Prop} {E}
    (hx : HasBytes m p xs) (hl : xs.length = 16) (hw : CanWrite m q 32) (hk : wp (f ()) Q E (m.write q (hexEnc case xs))) :
    wp (do
      let x ← v128_load s p
      let y ← liftO (encode_bytes16 s x (encode_lut case))
      v256_store s q y
      f ()) Q E m := by
  obtain ⟨v, hv, hvl⟩ := encode_bytes16_spec s hs case xs hl
  simp only [wp_bind, wp_v128_load hx hl, hv, wp_liftO_some, wp_v256_store, hvl]
  exact ⟨hw, hk⟩

theorem encode_simd_v256_spec {s : Isa} (hs : s ≠ .sse2) (case : AsciiCase) {m p q xs k} (hx : HasBytes m p xs) (hl : xs.length = k)
    (hw : CanWrite m q (2 * k)) (hd : Apart p q k (2 * k)) :
    Does (encode_simd_v256 s p k q case) () (encS case) xs q (2 * k) m := by
  have hb := hx.bound
  unfold CanWrite at hw
  unfold encode_simd_v256
  have h16 : ∀ {m p q xs} (f : Unit → Prog Unit) (n n2), HasBytes m p xs → 16 ≤ xs.length → CanWrite m q n → n = 32 + n2 → Apart p q xs.length n →
      (∀ m', HasBytes m' (p.add 16) (xs.drop 16) → CanWrite m' (q.add 32) n2 → m'.size = m.size →
        Does (f ()) () (encS case) (xs.drop 16) (q.add 32) n2 m') →
      Does (do
        let x ← v128_load s p
        let y ← liftO (encode_bytes16 s x (encode_lut case))
        v256_store s q y
        f ()) () (encS case) xs q n m := by
    intro m p q xs f n n2 hx hl hw hn hd h
    have := Does.seqS (x := do
        let x ← v128_load s p
        let y ← liftO (encode_bytes16 s x (encode_lut case))
        v256_store s q y) (f := f) (r0 := ()) (r1 := ()) (spec := encS case) (k := 16) (n1 := 32) (n2 := n2) hx hl hw hn (by unfold Apart at hd; omega) (encS_append _ _ _)
      (by
        obtain ⟨v, hv, hvl⟩ := encode_bytes16_spec s hs case (xs.take 16) (by simp; omega)
        unfold CanWrite at hw
        unfold Does
        simp only [wp_bind, wp_v128_load (hx.take 16) (by simp; omega), hv, wp_liftO_some, wp_v256_store, hvl]
        exact ⟨by omega, trivial, _, rfl, by simp [hexEnc_length]; omega, rfl⟩) h
    unfold Does at this ⊢
    simpa only [wp_bind] using this
  split
  · rename_i hk16
    have := h16 (fun _ => pure ()) (2 * k) 0 hx (by omega) hw (by omega) (by rw [hl]; exact hd)
      (fun m' _ _ _ => Does.nil (encS_nil _) (by simp; omega) rfl)
    unfold Does at this ⊢
    simpa only [wp_bind, wp_pure] using this
  · refine Does.padd (by omega) ?_
    rw [show k / 32 * 32 = 32 * (k / 32) by omega]
    refine Does.seqS (k := 32 * (k / 32)) (n1 := 64 * (k / 32)) (n2 := 2 * (k % 32)) hx (by omega) hw (by omega) (by unfold Apart at hd; omega) (encS_append _ _ _)
      (loop_specS (F := encode_loop32 s (encode_lut case)) (ret := fun p q => (p, q)) (a := 32) (b := 64) (by omega)
        (fun e p q h => by rw [encode_loop32, if_neg h]) (encS_nil case) (fun xs ys _ => encS_append case xs ys)
        (by
          intro e m p q xs Q E he hl hx hw hd' hk _
          obtain ⟨v, w, hv, hvl⟩ := encode_bytes32_spec s hs case xs hl
          have hb := hx.bound
          unfold CanWrite at hw
          rw [encode_loop32, if_pos he]
          simp only [wp_bind, wp_v256_load hx hl, hv, wp_liftO_some, wp_v256_store, wp_padd, Mem.write_size,
            Ptr.add_buf, Ptr.add_off]
          rw [Mem.write_append' m q _ _ (by simp), hvl]
          exact ⟨by omega, by omega, by omega, by omega, by omega, hk _ rfl (by rw [hexEnc_length]; omega)⟩)
        (k / 32) m p q _ (by rw [List.length_take]; omega) (hx.take _) (by unfold CanWrite; omega) (by unfold Apart at hd; unfold Safe; omega)) ?_
    intro m' hx' hw' hsz
    have hl' : (xs.drop (32 * (k / 32))).length = k % 32 := by rw [List.length_drop]; omega
    have hb' := hx'.bound
    unfold CanWrite at hw'
    simp only [Ptr.add_buf, Ptr.add_off] at hb' hw'
    simp only []
    split
    · exact Does.nil (encS_nil _) (by omega) (by omega)
    · split
      · refine h16 (fun _ => _) _ (2 * (k % 32 - 16)) hx' (by omega) (by unfold CanWrite; simp; omega) (by omega) (by unfold Apart at hd ⊢; simp; omega) (fun m'' hx'' hw'' hsz' => ?_)
        refine Does.padd (by simp [hsz']; omega) (Does.padd (by simp [hsz']; omega) ?_)
        have hl'' : ((xs.drop (32 * (k / 32))).drop 16).length = k % 32 - 16 := by rw [List.length_drop]; omega
        split
        · exact encode_short_spec case hx'' hl'' hw'' (by unfold Apart at hd ⊢; simp; omega)
        · exact Does.nil (encS_nil _) (by omega) (by omega)
      · split
        · exact encode_short_spec case hx' hl' (by unfold CanWrite; simp; omega) (by unfold Apart at hd ⊢; simp; omega)
        · exact Does.nil (encS_nil _) (by omega) (by omega)

theorem encode_simd_v128_spec {s : Isa} (hs : s ≠ .sse2) (case : AsciiCase) {m p q xs k} (hx : HasBytes m p xs) (hl : xs.length = k)
    (hw : CanWrite m q (2 * k)) (hd : Apart p q k (2 * k)) :
    Does (encode_simd_v128 s p k q case) () (encS case) xs q (2 * k) m := by
  have hb := hx.bound
  unfold CanWrite at hw
  unfold encode_simd_v128
  refine Does.padd (by omega) ?_
  rw [show k / 16 * 16 = 16 * (k / 16) by omega]
  refine Does.seqS (k := 16 * (k / 16)) (n1 := 32 * (k / 16)) (n2 := 2 * (k % 16)) hx (by omega) hw (by omega) (by unfold Apart at hd; omega) (encS_append _ _ _)
    (loop_specS (F := encode_loop16 s (encode_lut case)) (ret := fun p q => (p, q)) (a := 16) (b := 32) (by omega)
      (fun e p q h => by rw [encode_loop16, if_neg h]) (encS_nil case) (fun xs ys _ => encS_append case xs ys)
      (by
        intro e m p q xs Q E he hl hx hw hd' hk _
        obtain ⟨v, hv, hvl⟩ := encode_bytes16_spec s hs case xs hl
        have hb := hx.bound
        unfold CanWrite at hw
        rw [encode_loop16, if_pos he]
        simp only [wp_bind, wp_v128_load hx hl, hv, wp_liftO_some, wp_v256_store, wp_padd, Mem.write_size, hvl]
        exact ⟨by omega, by omega, by omega, hk _ rfl (by rw [hexEnc_length]; omega)⟩)
      (k / 16) m p q _ (by rw [List.length_take]; omega) (hx.take _) (by unfold CanWrite; omega) (by unfold Apart at hd; unfold Safe; omega)) ?_
  intro m' hx' hw' hsz
  have hl' : (xs.drop (16 * (k / 16))).length = k % 16 := by rw [List.length_drop]; omega
  simp only []
  split
  · exact Does.nil (encS_nil _) (by omega) (by omega)
  · exact encode_short_spec case hx' hl' hw' (by unfold Apart at hd ⊢; simp; omega)

theorem encode_simd_sse2_spec (case : AsciiCase) {m p q xs k} (hx : HasBytes m p xs) (hl : xs.length = k)
    (hw : CanWrite m q (2 * k)) (hd : Apart p q k (2 * k)) :
    Does (encode_simd_sse2 p k q case) () (encS case) xs q (2 * k) m := by
  have hb := hx.bound
  unfold CanWrite at hw
  unfold encode_simd_sse2
  refine Does.padd (by omega) ?_
  rw [show k / 16 * 16 = 16 * (k / 16) by omega]
  refine Does.seqS (k := 16 * (k / 16)) (n1 := 32 * (k / 16)) (n2 := 2 * (k % 16)) hx (by omega) hw (by omega) (by unfold Apart at hd; omega) (encS_append _ _ _)
    (loop_specS (F := encode_loop_sse2 (sse2_offset case)) (ret := fun p q => (p, q)) (a := 16) (b := 32) (by omega)
      (fun e p q h => by rw [encode_loop_sse2, if_neg h]) (encS_nil case) (fun xs ys _ => encS_append case xs ys)
      (by
        intro e m p q xs Q E he hl hx hw hd' hk _
        obtain ⟨v, w, hv, hvl⟩ := sse2_encode16_spec case xs hl
        have hb := hx.bound
        unfold CanWrite at hw
        rw [encode_loop_sse2, if_pos he]
        simp only [wp_bind, wp_v128_load hx hl, hv, wp_liftO_some, wp_v128_store, wp_padd, Mem.write_size,
          Ptr.add_buf, Ptr.add_off]
        rw [Mem.write_append' m q _ _ (by simp), hvl]
        exact ⟨by omega, by omega, by omega, by omega, by omega, hk _ rfl (by rw [hexEnc_length]; omega)⟩)
      (k / 16) m p q _ (by rw [List.length_take]; omega) (hx.take _) (by unfold CanWrite; omega) (by unfold Apart at hd; unfold Safe; omega)) ?_
  intro m' hx' hw' hsz
  have hl' : (xs.drop (16 * (k / 16))).length = k % 16 := by rw [List.length_drop]; omega
  simp only []
  split
  · exact Does.nil (encS_nil _) (by omega) (by omega)
  · exact encode_short_spec case hx' hl' hw' (by unfold Apart at hd ⊢; simp; omega)

/-- All implementations of `encode`, including those no target list mentions. -/
theorem encode_auto_spec (i : Option Isa) (case : AsciiCase) {m p q xs k} (hx : HasBytes m p xs) (hl : xs.length = k)
    (hw : CanWrite m q (2 * k)) (hd : Apart p q k (2 * k)) :
    Does (encode_auto i p k q case) () (encS case) xs q (2 * k) m := by
  cases i with
  | none => exact encode_long_spec case hx hl hw hd
  | some s =>
    simp only [encode_auto, encode_simd]
    split
    · exact encode_simd_sse2_spec case hx hl hw hd
    · rename_i hs
      split
      · exact encode_simd_v256_spec hs case hx hl hw hd
      · exact encode_simd_v128_spec hs case hx hl hw hd

end Hex
end Simd
