import Verif.Lemmas.Ren
import Verif.Model.Unicode
/-
The functions of unicode-simd with the slices in renamed allocations.
-/
namespace Simd.Unicode
open Vs
variable {ρ : Nat → Nat}

theorem ren_is_ascii_fallback_loop (e) (pb po : Nat) (a) : RenE ρ (is_ascii_fallback_loop e ⟨pb, po⟩ a) (is_ascii_fallback_loop e ⟨ρ pb, po⟩ a) := by
  unfold is_ascii_fallback_loop; ren [ren_is_ascii_fallback_loop] []
termination_by e - po
decreasing_by omega
theorem ren_is_ascii_fallback (pb po : Nat) (n) : RenE ρ (is_ascii_fallback ⟨pb, po⟩ n) (is_ascii_fallback ⟨ρ pb, po⟩ n) := by
  unfold is_ascii_fallback; ren [ren_is_ascii_fallback_loop] []
theorem ren_is_ascii_loop32 (s e) (pb po : Nat) (y) : Ren ρ (RelPN ρ) (is_ascii_loop32 s e ⟨pb, po⟩ y) (is_ascii_loop32 s e ⟨ρ pb, po⟩ y) := by
  unfold is_ascii_loop32; ren [ren_is_ascii_loop32] []
termination_by e - po
decreasing_by omega
theorem ren_is_ascii_simd_v256 (pb po : Nat) (s n) : RenE ρ (is_ascii_simd_v256 s ⟨pb, po⟩ n) (is_ascii_simd_v256 s ⟨ρ pb, po⟩ n) := by
  unfold is_ascii_simd_v256; ren [ren_is_ascii_fallback] [ren_is_ascii_loop32]
theorem ren_check_tiny_loop (e) : ∀ k pb po a, RenE ρ (check_tiny_loop e k ⟨pb, po⟩ a) (check_tiny_loop e k ⟨ρ pb, po⟩ a) 
  | 0, pb, po, a => by unfold check_tiny_loop; ren [] []
  | k + 1, pb, po, a => by have ih := ren_check_tiny_loop e k; unfold check_tiny_loop; ren [ih] []
theorem ren_check_tiny (pb po : Nat) (n) : RenE ρ (check_tiny ⟨pb, po⟩ n) (check_tiny ⟨ρ pb, po⟩ n) := by
  unfold check_tiny check_tiny_rest; ren [ren_check_tiny_loop] []
theorem ren_check_short (pb po : Nat) (n) : RenE ρ (check_short ⟨pb, po⟩ n) (check_short ⟨ρ pb, po⟩ n) := by
  unfold check_short; ren [] []
theorem ren_or_load (pb po : Nat) (c k x) : RenE ρ (or_load c ⟨pb, po⟩ k x) (or_load c ⟨ρ pb, po⟩ k x) := by
  unfold or_load; ren [] []
theorem ren_check_medium (pb po : Nat) (n) : RenE ρ (check_medium ⟨pb, po⟩ n) (check_medium ⟨ρ pb, po⟩ n) := by
  unfold check_medium; ren [ren_or_load] []
theorem ren_check_long_loop (e) (pb po : Nat) : Ren ρ (RelOP ρ) (check_long_loop e ⟨pb, po⟩) (check_long_loop e ⟨ρ pb, po⟩) := by
  unfold check_long_loop; ren [ren_check_long_loop] []
termination_by e - po
decreasing_by omega
theorem ren_check_long (pb po : Nat) (n) : RenE ρ (check_long ⟨pb, po⟩ n) (check_long ⟨ρ pb, po⟩ n) := by
  unfold check_long
  refine Ren.seq (Ren.padd _ _ _) fun _ => Ren.bind (ren_check_long_loop _ _ _) ?_
  rintro (_ | p) _ ⟨⟩ <;> dsimp only [Option.map] <;> ren [ren_check_tiny, ren_check_short, ren_check_medium] []
theorem ren_is_ascii (xb xo xn : Nat) (x64 i) : RenE ρ (is_ascii x64 i ⟨⟨xb, xo⟩, xn⟩) (is_ascii x64 i ⟨⟨ρ xb, xo⟩, xn⟩) := by
  unfold is_ascii is_ascii_auto is_ascii_simd is_ascii_sse2; ren [ren_is_ascii_fallback, ren_is_ascii_simd_v256, ren_check_tiny, ren_check_short, ren_check_medium, ren_check_long] []
theorem ren_from_ascii (xb xo xn : Nat) (x64 i) : Ren ρ (fun r r' => r' = r.map fun s => ⟨⟨ρ s.ptr.buf, s.ptr.off⟩, s.len⟩) (from_ascii x64 i ⟨⟨xb, xo⟩, xn⟩) (from_ascii x64 i ⟨⟨ρ xb, xo⟩, xn⟩) := by
  unfold from_ascii; ren [ren_is_ascii] []
theorem ren_is_utf32le_fallback_loop (e) (pb po : Nat) (a) : RenE ρ (is_utf32le_fallback_loop e ⟨pb, po⟩ a) (is_utf32le_fallback_loop e ⟨ρ pb, po⟩ a) := by
  unfold is_utf32le_fallback_loop; ren [ren_is_utf32le_fallback_loop] []
termination_by e - po
decreasing_by omega
theorem ren_is_utf32le_fallback (pb po : Nat) (n) : RenE ρ (is_utf32le_fallback ⟨pb, po⟩ n) (is_utf32le_fallback ⟨ρ pb, po⟩ n) := by
  unfold is_utf32le_fallback; ren [ren_is_utf32le_fallback_loop] []
theorem ren_is_utf32le_loop8 (s e) (pb po : Nat) (y) : Ren ρ (RelPN ρ) (is_utf32le_loop8 s e ⟨pb, po⟩ y) (is_utf32le_loop8 s e ⟨ρ pb, po⟩ y) := by
  unfold is_utf32le_loop8; ren [ren_is_utf32le_loop8] []
termination_by e - po
decreasing_by omega
theorem ren_is_utf32le (xb xo xn : Nat) (i) : RenE ρ (is_utf32le i ⟨⟨xb, xo⟩, xn⟩) (is_utf32le i ⟨⟨ρ xb, xo⟩, xn⟩) := by
  unfold is_utf32le is_utf32le_auto is_utf32le_simd; ren [ren_is_utf32le_fallback] [ren_is_utf32le_loop8]
theorem ren_bswap_fallback_loop (t e) (pb po qb qo : Nat) : RenE ρ (bswap_fallback_loop t e ⟨pb, po⟩ ⟨qb, qo⟩) (bswap_fallback_loop t e ⟨ρ pb, po⟩ ⟨ρ qb, qo⟩) := by
  unfold bswap_fallback_loop; ren [ren_bswap_fallback_loop] []
termination_by e - po
decreasing_by cases t <;> simp only [Elem.size] <;> omega
theorem ren_bswap_fallback (pb po qb qo : Nat) (t n) : RenE ρ (bswap_fallback t ⟨pb, po⟩ n ⟨qb, qo⟩) (bswap_fallback t ⟨ρ pb, po⟩ n ⟨ρ qb, qo⟩) := by
  unfold bswap_fallback; ren [ren_bswap_fallback_loop] []
theorem ren_bswap_simd_loop (t s e) (pb po qb qo : Nat) :
    Ren ρ (RelPP ρ) (bswap_simd_loop t s e ⟨pb, po⟩ ⟨qb, qo⟩) (bswap_simd_loop t s e ⟨ρ pb, po⟩ ⟨ρ qb, qo⟩) := by
  unfold bswap_simd_loop; ren [ren_bswap_simd_loop] []
termination_by e - po
decreasing_by cases t <;> simp only [Elem.size, Elem.lanes] <;> omega
theorem ren_swap_auto (pb po qb qo : Nat) (t i n) : RenE ρ (swap_auto t i ⟨pb, po⟩ n ⟨qb, qo⟩) (swap_auto t i ⟨ρ pb, po⟩ n ⟨ρ qb, qo⟩) := by
  unfold swap_auto bswap_simd; ren [ren_bswap_fallback] [ren_bswap_simd_loop]
theorem ren_swap_endianness (srcb srco srcn : Nat) (dstb dsto dstn : Nat) (t i) : Ren ρ (RelS ρ) (swap_endianness t i ⟨⟨srcb, srco⟩, srcn⟩ ⟨⟨dstb, dsto⟩, dstn⟩) (swap_endianness t i ⟨⟨ρ srcb, srco⟩, srcn⟩ ⟨⟨ρ dstb, dsto⟩, dstn⟩) := by
  unfold swap_endianness; ren [ren_swap_auto] []
theorem ren_swap_endianness_inplace (xb xo xn : Nat) (t i) : RenE ρ (swap_endianness_inplace t i ⟨⟨xb, xo⟩, xn⟩) (swap_endianness_inplace t i ⟨⟨ρ xb, xo⟩, xn⟩) := by
  unfold swap_endianness_inplace; ren [ren_swap_auto] []

end Simd.Unicode
