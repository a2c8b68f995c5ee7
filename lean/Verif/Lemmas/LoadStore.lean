import Verif.Lemmas.Wp
import Verif.Lemmas.Scalable
/-
Vector loads and stores, and swizzles with constant index vectors.
-/
namespace Simd
namespace Vs
open IsaId Intrin

theorem join_ofList (a b : List Byte) (h : a.length = 16) :
    join (.ofList a) (.ofList b) = .ofList (a ++ b) := by
  apply Vec.ext; intro i
  simp only [join_lane, Vec.ofList_lane, List.getD_eq_getElem?_getD]
  split
  · rw [List.getElem?_append_left (by omega)]
  · rw [List.getElem?_append_right (by omega), h]

theorem wp_v128_load {s m p} {xs : List Byte} {Q : V128 → Mem → Prop} {E} (h : HasBytes m p xs) (hl : xs.length = 16) :
    wp (v128_load s p) Q E m ↔ Q (.ofList xs) m := by
  have key : wp (do return (.ofList (← loadBytes p 16)) : Prog V128) Q E m ↔ Q (.ofList xs) m := by
    simp only [wp_bind, wp_loadBytes, h.read' hl, wp_pure]
    simp
  cases s <;> simpa [v128_load, Isa.is] using key

theorem wp_v256_load {s m p} {xs : List Byte} {Q : V256 → Mem → Prop} {E} (h : HasBytes m p xs) (hl : xs.length = 32) :
    wp (v256_load s p) Q E m ↔ Q (.ofList xs) m := by
  have key : wp (do return (.ofList (← loadBytes p 32)) : Prog V256) Q E m ↔ Q (.ofList xs) m := by
    simp only [wp_bind, wp_loadBytes, h.read' hl, wp_pure]
    simp
  have key2 : wp (do let x0 ← v128_load s p; padd p 16; let x1 ← v128_load s (p.add 16); return join x0 x1 : Prog V256) Q E m
      ↔ Q (.ofList xs) m := by
    have hb := h.bound
    rw [wp_bind, wp_v128_load (h.take 16) (by simp [hl]), wp_bind, wp_padd, wp_bind,
      wp_v128_load (h.drop 16 (by omega)) (by simp [hl]), wp_pure,
      join_ofList _ _ (by simp [hl]), List.take_append_drop]
    exact ⟨fun h => h.2, fun h => ⟨by omega, h⟩⟩
  unfold v256_load
  split
  · exact key
  · split
    · exact key
    · exact key2

@[simp] theorem wp_v128_store {s m p a} {Q : Unit → Mem → Prop} {E} :
    wp (v128_store s p a) Q E m ↔ p.off + 16 ≤ m.size p.buf ∧ Q () (m.write p a.toList) := by
  cases s <;> simp [v128_store, Isa.is]

@[simp] theorem wp_v256_store {s m p a} {Q : Unit → Mem → Prop} {E} :
    wp (v256_store s p a) Q E m ↔ p.off + 32 ≤ m.size p.buf ∧ Q () (m.write p a.toList) := by
  unfold v256_store
  split
  · simp
  · split
    · simp
    · simp only [wp_bind, wp_v128_store, wp_padd, Mem.write_size, Ptr.add_buf, Ptr.add_off]
      rw [Mem.write_append' m p _ _ (by simp), ← toList_split]
      constructor
      · rintro ⟨_, _, h, hq⟩; exact ⟨by omega, hq⟩
      · rintro ⟨h, hq⟩; exact ⟨by omega, by omega, by omega, hq⟩

theorem idx_ok16 {L : List Byte} (h : ∀ x ∈ L, x.toNat < 16 ∨ 128 ≤ x.toNat) (i) :
    ((Vec.ofList L : V128).lane i).toNat < 16 ∨ 128 ≤ ((Vec.ofList L : V128).lane i).toNat := by
  rw [Vec.ofList_lane, List.getD_eq_getElem?_getD]
  by_cases hi : i < L.length
  · rw [List.getElem?_eq_getElem hi]; exact h _ (List.getElem_mem hi)
  · rw [List.getElem?_eq_none (by omega)]; left; decide
theorem idx_ok32 {L : List Byte} (h : ∀ x ∈ L, x.toNat < 16 ∨ 128 ≤ x.toNat) (i) :
    ((Vec.ofList L : V256).lane i).toNat < 16 ∨ 128 ≤ ((Vec.ofList L : V256).lane i).toNat := by
  exact idx_ok16 h i
theorem idx_ok_x2 {L : List Byte} (h : ∀ x ∈ L, x.toNat < 16 ∨ 128 ≤ x.toNat) (i) :
    ((Vec.x2 (Vec.ofList L)).lane i).toNat < 16 ∨ 128 ≤ ((Vec.x2 (Vec.ofList L)).lane i).toNat := by
  rw [Vec.x2, join_lane]
  split
  · exact idx_ok16 h i
  · exact idx_ok16 h _

/-- Swizzle by a constant index vector. -/
theorem swz16 {s : Isa} (hs : s ≠ .sse2) (a : V128) {L : List Byte} (h : ∀ x ∈ L, x.toNat < 16 ∨ 128 ≤ x.toNat) :
    u8x16_swizzle s a (.ofList L) = some (shuffle_epi8 a (.ofList L)) := u8x16_swizzle_eq s hs a _ (idx_ok16 h)
theorem swz32 {s : Isa} (hs : s ≠ .sse2) (a : V256) {L : List Byte} (h : ∀ x ∈ L, x.toNat < 16 ∨ 128 ≤ x.toNat) :
    u8x16x2_swizzle s a (.ofList L) = some (shuffle_epi8 a (.ofList L)) := u8x16x2_swizzle_eq s hs a _ (idx_ok32 h)
theorem swzx2 {s : Isa} (hs : s ≠ .sse2) (a : V256) {L : List Byte} (h : ∀ x ∈ L, x.toNat < 16 ∨ 128 ≤ x.toNat) :
    u8x16x2_swizzle s a (Vec.x2 (.ofList L)) = some (shuffle_epi8 a (Vec.x2 (.ofList L))) :=
  u8x16x2_swizzle_eq s hs a _ (idx_ok_x2 h)

end Vs
end Simd
