import Verif.Lemmas.Work
import Verif.Model.Hex
/-
The work of the functions of hex-simd.
-/
namespace Simd.Hex
open Vs

theorem cost_check_short_loop (e) (p : Ptr) (f) : Cost' (check_short_loop e p f) (2 * (e - p.off)) := by
  unfold check_short_loop; cost [cost_check_short_loop ..]
termination_by e - p.off
decreasing_by simp only [Ptr.add]; omega
theorem cost_check_short (p : Ptr) (n) : Cost' (check_short p n) (2 * n) := by
  unfold check_short; cost [cost_check_short_loop ..]
theorem cost_check_short_sc_loop (e) (p : Ptr) : Cost' (check_short_sc_loop e p) (2 * (e - p.off)) := by
  unfold check_short_sc_loop; cost [cost_check_short_sc_loop ..]
termination_by e - p.off
decreasing_by simp only [Ptr.add]; omega
theorem cost_check_short_sc (p : Ptr) (n) : Cost' (check_short_sc p n) (2 * n) := by
  unfold check_short_sc; cost [cost_check_short_sc_loop ..]
theorem cost_check_loop32 (s e) (p : Ptr) : Cost' (check_loop32 s e p) (34 * ((e - p.off + 31) / 32)) := by
  unfold check_loop32; cost [cost_check_loop32 ..]
termination_by e - p.off
decreasing_by simp only [Ptr.add]; omega
theorem cost_check_loop16 (s e) (p : Ptr) : Cost' (check_loop16 s e p) (17 * ((e - p.off + 15) / 16)) := by
  unfold check_loop16; cost [cost_check_loop16 ..]
termination_by e - p.off
decreasing_by simp only [Ptr.add]; omega
theorem cost_check_tail (s) (p : Ptr) (n) : Cost' (check_tail s p n) (2 * n) := by
  unfold check_tail; cost [cost_check_short .., cost_check_short_sc ..]
theorem cost_check_simd (s) (p : Ptr) (n) : Cost' (check_simd s p n) (2 * n) := by
  unfold check_simd; cost [cost_check_tail .., cost_check_loop32 .., cost_check_loop16 ..]
theorem cost_check_auto (i) (p : Ptr) (n) : Cost' (check_auto i p n) (2 * n) := by
  unfold check_auto check_fallback; cost [cost_check_short .., cost_check_simd ..]

theorem cost_encode_bits (p q : Ptr) (cs) : Cost' (encode_bits p q cs) 6 := by
  unfold encode_bits; cost []
theorem cost_encode_short_loop (e) (p q : Ptr) (cs) : Cost' (encode_short_loop e p q cs) (6 * (e - p.off)) := by
  unfold encode_short_loop; cost [cost_encode_bits .., cost_encode_short_loop ..]
termination_by e - p.off
decreasing_by simp only [Ptr.add]; omega
theorem cost_encode_short (p q : Ptr) (n cs) : Cost' (encode_short p n q cs) (6 * n) := by
  unfold encode_short; cost [cost_encode_short_loop ..]
theorem cost_encode_long_inner (cs) : ∀ k p q, Cost' (encode_long_inner cs k p q) (6 * k)
  | 0, p, q => by unfold encode_long_inner; cost []
  | k + 1, p, q => by have ih := cost_encode_long_inner cs k; unfold encode_long_inner; cost [cost_encode_bits .., ih ..]
theorem cost_encode_long_loop (e) (p q : Ptr) (cs) : Cost' (encode_long_loop e p q cs) (48 * ((e - p.off + 7) / 8)) := by
  unfold encode_long_loop; cost [cost_encode_long_inner .., cost_encode_long_loop ..]
termination_by e - p.off
decreasing_by simp only [Ptr.add]; omega
theorem cost_encode_long (p q : Ptr) (n c) : Cost' (encode_long p n q c) (6 * n) := by
  unfold encode_long; cost [cost_encode_short .., cost_encode_long_loop ..]
theorem cost_encode_loop32 (s lut e) (p q : Ptr) : Cost' (encode_loop32 s lut e p q) (102 * ((e - p.off + 31) / 32)) := by
  unfold encode_loop32; cost [cost_encode_loop32 ..]
termination_by e - p.off
decreasing_by simp only [Ptr.add]; omega
theorem cost_encode_v256 (p q : Ptr) (s n c) : Cost' (encode_simd_v256 s p n q c) (6 * n) := by
  unfold encode_simd_v256; cost [cost_encode_short .., cost_encode_loop32 ..]
theorem cost_encode_loop16 (s lut e) (p q : Ptr) : Cost' (encode_loop16 s lut e p q) (51 * ((e - p.off + 15) / 16)) := by
  unfold encode_loop16; cost [cost_encode_loop16 ..]
termination_by e - p.off
decreasing_by simp only [Ptr.add]; omega
theorem cost_encode_v128 (p q : Ptr) (s n c) : Cost' (encode_simd_v128 s p n q c) (6 * n) := by
  unfold encode_simd_v128; cost [cost_encode_short .., cost_encode_loop16 ..]
theorem cost_encode_loop_sse2 (o e) (p q : Ptr) : Cost' (encode_loop_sse2 o e p q) (51 * ((e - p.off + 15) / 16)) := by
  unfold encode_loop_sse2; cost [cost_encode_loop_sse2 ..]
termination_by e - p.off
decreasing_by simp only [Ptr.add]; omega
theorem cost_encode_sse2 (p q : Ptr) (n c) : Cost' (encode_simd_sse2 p n q c) (6 * n) := by
  unfold encode_simd_sse2; cost [cost_encode_short .., cost_encode_loop_sse2 ..]
theorem cost_encode_auto (p q : Ptr) (i n c) : Cost' (encode_auto i p n q c) (6 * n) := by
  unfold encode_auto encode_fallback encode_simd; cost [cost_encode_long .., cost_encode_sse2 .., cost_encode_v256 .., cost_encode_v128 ..]

theorem cost_decode_bits (p q : Ptr) : Cost' (decode_bits p q) 6 := by
  unfold decode_bits; cost []
theorem cost_decode_short_loop1 (e) (p q : Ptr) : Cost' (decode_short_loop1 e p q) (6 * ((e - p.off + 1) / 2)) := by
  unfold decode_short_loop1; cost [cost_decode_bits .., cost_decode_short_loop1 ..]
termination_by e - p.off
decreasing_by simp only [Ptr.add]; omega
theorem cost_decode_short_loop2 (e) (p q : Ptr) (f) : Cost' (decode_short_loop2 e p q f) (6 * ((e - p.off + 1) / 2)) := by
  unfold decode_short_loop2; cost [cost_decode_bits .., cost_decode_short_loop2 ..]
termination_by e - p.off
decreasing_by simp only [Ptr.add]; omega
theorem cost_decode_short (p q : Ptr) (s n) : Cost' (decode_short s p n q) (6 * ((n + 1) / 2)) := by
  unfold decode_short; cost [cost_decode_short_loop1 .., cost_decode_short_loop2 ..]
theorem cost_decode_long_inner : ∀ k p q f, Cost' (decode_long_inner k p q f) (6 * k)
  | 0, p, q, f => by unfold decode_long_inner; cost []
  | k + 1, p, q, f => by have ih := cost_decode_long_inner k; unfold decode_long_inner; cost [cost_decode_bits .., ih ..]
theorem cost_decode_long_loop (e) (p q : Ptr) : Cost' (decode_long_loop e p q) (48 * ((e - p.off + 15) / 16)) := by
  unfold decode_long_loop; cost [cost_decode_long_inner .., cost_decode_long_loop ..]
termination_by e - p.off
decreasing_by simp only [Ptr.add]; omega
theorem cost_decode_long (p q : Ptr) (n) : Cost' (decode_long p n q) (3 * n + 3) := by
  unfold decode_long; cost [cost_decode_short .., cost_decode_long_loop ..]
theorem cost_decode16 (p q : Ptr) (s) : Cost' (decode16 s p q) 26 := by
  unfold decode16; cost []
theorem cost_decode32 (p q : Ptr) (s) : Cost' (decode32 s p q) 51 := by
  unfold decode32; cost []
theorem cost_decode_loop64 (s e) (p q : Ptr) : Cost' (decode_loop64 s e p q) (102 * ((e - p.off + 63) / 64)) := by
  unfold decode_loop64; cost [cost_decode_loop64 ..]
termination_by e - p.off
decreasing_by simp only [Ptr.add]; omega
theorem cost_decode_tail16 (p q : Ptr) (s n) : Cost' (decode_tail16 s p n q) (3 * n + 3) := by
  unfold decode_tail16; cost [cost_decode16 .., cost_decode_short ..]
theorem cost_decode_v256 (p q : Ptr) (s n) : Cost' (decode_simd_v256 s p n q) (3 * n + 3) := by
  unfold decode_simd_v256; cost [cost_decode16 .., cost_decode32 .., cost_decode_tail16 .., cost_decode_loop64 ..]
theorem cost_decode_loop32 (s e) (p q : Ptr) : Cost' (decode_loop32 s e p q) (51 * ((e - p.off + 31) / 32)) := by
  unfold decode_loop32; cost [cost_decode32 .., cost_decode_loop32 ..]
termination_by e - p.off
decreasing_by simp only [Ptr.add]; omega
theorem cost_decode_v128 (p q : Ptr) (s n) : Cost' (decode_simd_v128 s p n q) (3 * n + 3) := by
  unfold decode_simd_v128; cost [cost_decode_tail16 .., cost_decode_loop32 ..]
theorem cost_decode_loop_sse2 (e) (p q : Ptr) : Cost' (decode_loop_sse2 e p q) (26 * ((e - p.off + 15) / 16)) := by
  unfold decode_loop_sse2; cost [cost_decode_loop_sse2 ..]
termination_by e - p.off
decreasing_by simp only [Ptr.add]; omega
theorem cost_decode_sse2 (p q : Ptr) (n) : Cost' (decode_simd_sse2 p n q) (3 * n + 3) := by
  unfold decode_simd_sse2; cost [cost_decode_short .., cost_decode_loop_sse2 ..]
theorem cost_decode_auto (p q : Ptr) (i n) : Cost' (decode_auto i p n q) (3 * n + 3) := by
  unfold decode_auto decode_fallback decode_simd
  cases i
  · exact cost_decode_long ..
  · dsimp only
    split
    · exact cost_decode_sse2 ..
    · split
      · exact cost_decode_v256 ..
      · exact cost_decode_v128 ..

theorem cost_encode (src dst : Slice) (P i c) : Cost' (encode P i src dst c) (6 * src.len) := by
  unfold encode; cost [cost_encode_auto ..]
theorem cost_decode (src dst : Slice) (i) : Cost' (decode i src dst) (3 * src.len + 3) := by
  unfold decode; cost [cost_decode_auto ..]
theorem cost_decode_inplace (d : Slice) (i) : Cost' (decode_inplace i d) (3 * d.len + 3) := by
  unfold decode_inplace; cost [cost_decode_auto ..]

end Simd.Hex
