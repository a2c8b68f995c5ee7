import Verif.Lemmas.Whitespace
import Verif.Lemmas.ForgivingSpec
/-
The three forgiving decoders, on any memory.
-/
namespace Simd

/-- In-place decoding at any pointer. -/
theorem DecApi.inplace_wp (A : DecApi) {m : Mem} {p : Ptr} {xs : List Byte} (hx : HasBytes m p xs) :
    wp (A.inplace ⟨p, xs.length⟩) (fun s m' => ∃ ys, A.full xs = some ys ∧ s = ⟨p, ys.length⟩ ∧ m' = m.write p ys)
      (fun m' => A.full xs = none ∧ SameOutside m m' p xs.length) m := by
  have hb := hx.bound
  have hr := A.hD _ _ _ hx
  unfold inplace
  rw [wp_bind]
  cases hdl : A.dlen xs with
  | none =>
    rw [hdl] at hr
    unfold wp
    rw [hr]
    exact ⟨by rw [full, hdl]; rfl, SameOutside.refl⟩
  | some r =>
    obtain ⟨n, k⟩ := r
    rw [hdl] at hr
    have hk := A.hle xs n k hdl
    have h1 := (A.does hdl hx (q := p) (by unfold CanWrite; omega) (.inr (.inl (Nat.le_refl _)))).ret (f := fun _ => (⟨p, k⟩ : Slice))
    unfold wp
    rw [hr]
    refine wp_mono h1 ?_ ?_
    · rintro s m' ⟨rfl, ys, hy, hl, rfl⟩
      exact ⟨ys, hy, by rw [hl], rfl⟩
    · rintro m' ⟨hn, hso⟩
      exact ⟨hn, hso.mono rfl (Nat.le_refl _) (by omega)⟩

namespace Base64
open Spec

theorem full_strip (xs : List Byte) : full STANDARD_FORGIVING (stripWs xs) = forgivingDecode xs := full_forgiving _

/-- `decode_inplace` of `STANDARD_FORGIVING` on a text without its whitespace. -/
theorem decode_strip_wp {di : Option Isa} (hd : di ≠ some .sse2) {m : Mem} {p : Ptr} {xs : List Byte} (hx : HasBytes m p (stripWs xs)) :
    wp (decode_inplace di STANDARD_FORGIVING ⟨p, (stripWs xs).length⟩)
      (fun s m' => ∃ ys, forgivingDecode xs = some ys ∧ s = ⟨p, ys.length⟩ ∧ m' = m.write p ys ∧ ys.length ≤ (stripWs xs).length)
      (fun m' => forgivingDecode xs = none ∧ SameOutside m m' p xs.length) m := by
  have := (decApi hd STANDARD_FORGIVING).inplace_wp hx
  refine wp_mono this ?_ ?_
  · rintro s m' ⟨ys, hy, rfl, rfl⟩
    have hle := (decApi hd STANDARD_FORGIVING).full_le hy
    rw [full_eq, full_strip] at hy
    exact ⟨ys, hy, rfl, rfl, hle⟩
  · rintro m' ⟨hn, hso⟩
    rw [full_eq, full_strip] at hn
    exact ⟨hn, hso.mono rfl (Nat.le_refl _) (by have := stripWs_length xs; omega)⟩

/-- `forgiving_decode_inplace`. -/
theorem forgiving_inplace_wp (fi : Option Isa) {di : Option Isa} (hd : di ≠ some .sse2) {m : Mem} {p : Ptr} {xs : List Byte} (hx : HasBytes m p xs) :
    wp (forgiving_decode_inplace fi di ⟨p, xs.length⟩)
      (fun s m' => ∃ ys, forgivingDecode xs = some ys ∧ s = ⟨p, ys.length⟩ ∧ HasBytes m' p ys ∧ SameOutside m m' p xs.length)
      (fun m' => forgivingDecode xs = none ∧ SameOutside m m' p xs.length) m := by
  have hb := hx.bound
  have hs := stripWs_length xs
  unfold forgiving_decode_inplace
  rw [wp_bind]
  refine remove_inplace_wp fi hx ?_
  have hx' : HasBytes (m.write p (stripWs xs)) p (stripWs xs) := hasBytes_write_self (by omega)
  have h1 : SameOutside m (m.write p (stripWs xs)) p xs.length := .write rfl (Nat.le_refl _) (by omega)
  refine wp_mono (decode_strip_wp hd hx') ?_ ?_
  · rintro s m' ⟨ys, hy, rfl, rfl, hle⟩
    exact ⟨ys, hy, rfl, hasBytes_write_self (by simp; omega), h1.trans (.write rfl (Nat.le_refl _) (by omega))⟩
  · rintro m' ⟨hn, hso⟩
    exact ⟨hn, h1.trans hso⟩

theorem copy_wp {src dst : Ptr} {n : Nat} {m : Mem} {xs : List Byte} {Q : Unit → Mem → Prop} {E} (hx : HasBytes m src xs) (hl : xs.length = n)
    (hw : CanWrite m dst n) (hd : Apart src dst n n) (hQ : Q () (m.write dst xs)) : wp (copy_nonoverlapping src dst n) Q E m := by
  unfold copy_nonoverlapping
  rw [if_neg (by unfold Apart at hd; omega), wp_bind, wp_loadBytes_iff hx hl, wp_storeBytes, hl]
  exact ⟨hw, hQ⟩

/-- The copying path of `forgiving_decode` and `forgiving_decode_to_vec`. -/
theorem copy_and_decode_wp {di : Option Isa} (hd : di ≠ some .sse2) {m : Mem} {p q : Ptr} {xs : List Byte} (hx : HasBytes m p xs)
    (hw : CanWrite m q xs.length) (hb : Apart p q xs.length xs.length) :
    wp (copy_and_decode di ⟨p, xs.length⟩ (firstWs xs) q)
      (fun s m' => ∃ ys, forgivingDecode xs = some ys ∧ s = ⟨q, ys.length⟩ ∧ HasBytes m' q ys ∧ SameOutside m m' q xs.length ∧ ys.length ≤ xs.length)
      (fun m' => forgivingDecode xs = none ∧ SameOutside m m' q xs.length) m := by
  have hbd := hx.bound
  have hle := firstWs_le xs
  have hs := stripWs_length xs
  unfold CanWrite at hw
  have hl : (xs.take (firstWs xs)).length = firstWs xs := by rw [List.length_take]; omega
  unfold copy_and_decode
  rw [wp_bind]
  refine copy_wp (hx.take (firstWs xs)) hl (by unfold CanWrite; omega) (hb.mono hle hle) ?_
  rw [wp_bind, wp_padd]
  refine ⟨by simp; omega, ?_⟩
  rw [wp_bind, wp_padd]
  refine ⟨by simp; omega, ?_⟩
  rw [wp_bind]
  refine remove_wp (by rw [List.length_drop]) ((hx.write_apart hb (by omega)).drop _ hle) (by unfold CanWrite; simp; omega)
    (by unfold Apart at hb; unfold Behind; simp; omega) ?_
  have e := stripWs_first xs
  rw [wp_bind, wp_assert]
  refine ⟨by have := stripWs_length (xs.drop (firstWs xs)); simpa using this, ?_⟩
  rw [Mem.write_append' m q _ _ hl, ← e]
  have el : firstWs xs + (stripWs (xs.drop (firstWs xs))).length = (stripWs xs).length := by rw [e, List.length_append, hl]
  rw [el]
  have hx' : HasBytes (m.write q (stripWs xs)) q (stripWs xs) := hasBytes_write_self (by omega)
  have h1 : SameOutside m (m.write q (stripWs xs)) q xs.length := .write rfl (Nat.le_refl _) (by omega)
  refine wp_mono (decode_strip_wp hd hx') ?_ ?_
  · rintro s m' ⟨ys, hy, rfl, rfl, hle⟩
    exact ⟨ys, hy, rfl, hasBytes_write_self (by simp; omega), h1.trans (.write rfl (Nat.le_refl _) (by omega)), by omega⟩
  · rintro m' ⟨hn, hso⟩
    exact ⟨hn, h1.trans hso⟩

/-- Copying decoding at any pointers. -/
theorem decode_forgiving_wp {di : Option Isa} (hd : di ≠ some .sse2) {m : Mem} {p q : Ptr} {xs : List Byte} {k : Nat} (hx : HasBytes m p xs)
    (hw : CanWrite m q k) (hk : xs.length ≤ k) (hb : Apart p q xs.length xs.length) :
    wp (decode di STANDARD_FORGIVING ⟨p, xs.length⟩ ⟨q, k⟩)
      (fun s m' => ∃ ys, full STANDARD_FORGIVING xs = some ys ∧ s = ⟨q, ys.length⟩ ∧ m' = m.write q ys ∧ ys.length ≤ xs.length)
      (fun m' => full STANDARD_FORGIVING xs = none ∧ SameOutside m m' q xs.length) m := by
  let A := decApi hd STANDARD_FORGIVING
  show wp (A.decode ⟨p, xs.length⟩ ⟨q, k⟩) _ _ _
  unfold CanWrite at hw
  have hbd := hx.bound
  have hr := A.hD _ _ _ hx
  unfold DecApi.decode
  rw [wp_bind]
  cases hdl : A.dlen xs with
  | none =>
    rw [hdl] at hr
    unfold wp
    rw [hr]
    exact ⟨by rw [← full_eq hd]; show A.full xs = none; rw [DecApi.full, hdl]; rfl, SameOutside.refl⟩
  | some r =>
    obtain ⟨n, j⟩ := r
    rw [hdl] at hr
    have hj := A.hle xs n j hdl
    have h1 := (A.does hdl hx (q := q) (by unfold CanWrite; omega) (by unfold Apart at hb; unfold Behind; omega)).ret (f := fun _ => (⟨q, j⟩ : Slice))
    unfold wp
    rw [hr]
    show wp (ensure (decide (k ≥ j)) >>= _) _ _ _
    rw [wp_bind, wp_ensure, if_pos (by simp; omega)]
    refine wp_mono h1 ?_ ?_
    · rintro s m' ⟨rfl, ys, hy, hl, rfl⟩
      exact ⟨ys, hy, by rw [hl], rfl, by omega⟩
    · rintro m' ⟨hn, hso⟩
      exact ⟨hn, hso.mono rfl (Nat.le_refl _) (by omega)⟩

/-- `forgiving_decode`. -/
theorem forgiving_decode_wp (fi : Option Isa) {di : Option Isa} (hd : di ≠ some .sse2) {m : Mem} {p q : Ptr} {xs : List Byte} {k : Nat} (hx : HasBytes m p xs)
    (hw : CanWrite m q k) (hk : xs.length ≤ k) (hb : Apart p q xs.length xs.length) :
    wp (forgiving_decode fi di ⟨p, xs.length⟩ ⟨q, k⟩)
      (fun s m' => ∃ ys, forgivingDecode xs = some ys ∧ s = ⟨q, ys.length⟩ ∧ HasBytes m' q ys ∧ SameOutside m m' q xs.length ∧ ys.length ≤ xs.length)
      (fun m' => forgivingDecode xs = none ∧ SameOutside m m' q xs.length) m := by
  unfold forgiving_decode
  rw [wp_bind, wp_ensure, if_pos (by simpa using hk), wp_bind]
  refine find_wp fi hx ?_
  rw [wp_bind, wp_assert]
  refine ⟨by simpa using firstWs_le xs, ?_⟩
  split
  · rename_i h
    refine wp_mono (decode_forgiving_wp hd hx hw hk hb) ?_ ?_
    · rintro s m' ⟨ys, hy, rfl, rfl, hle⟩
      unfold CanWrite at hw
      rw [← stripWs_none h, full_strip] at hy
      exact ⟨ys, hy, rfl, hasBytes_write_self (by omega), .write rfl (Nat.le_refl _) (by omega), hle⟩
    · rintro m' ⟨hn, hso⟩
      rw [← stripWs_none h, full_strip] at hn
      exact ⟨hn, hso⟩
  · exact copy_and_decode_wp hd hx (by unfold CanWrite at hw ⊢; exact Nat.le_trans (Nat.add_le_add_left hk _) hw) hb

end Base64
end Simd
