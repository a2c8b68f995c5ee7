import Verif.Lemmas.Footprint
import Verif.Model.Hex
import Verif.Model.Uuid
/-
Which allocations the functions of hex-simd and uuid-simd load from and store to.
-/
namespace Simd

section Hex
open Hex Vs
variable {L W : Nat → Prop}

namespace Hex

theorem uses_check_short_loop (e) (p : Ptr) (f) (hp : L p.buf) : Uses' L W (check_short_loop e p f) := by
  unfold check_short_loop; uses [uses_check_short_loop] []
termination_by e - p.off
decreasing_by simp only [Ptr.add]; omega
theorem uses_check_short {p : Ptr} (hp : L p.buf) (n) : Uses' L W (check_short p n) := by
  unfold check_short; uses [uses_check_short_loop] []
theorem uses_check_short_sc_loop (e) (p : Ptr) (hp : L p.buf) : Uses' L W (check_short_sc_loop e p) := by
  unfold check_short_sc_loop; uses [uses_check_short_sc_loop] []
termination_by e - p.off
decreasing_by simp only [Ptr.add]; omega
theorem uses_check_short_sc {p : Ptr} (hp : L p.buf) (n) : Uses' L W (check_short_sc p n) := by
  unfold check_short_sc; uses [uses_check_short_sc_loop] []
theorem uses_check_loop32 (s e) (p : Ptr) (hp : L p.buf) : Uses L W (fun r : Ptr => L r.buf) (check_loop32 s e p) := by
  unfold check_loop32; uses [uses_check_loop32] []
termination_by e - p.off
decreasing_by simp only [Ptr.add]; omega
theorem uses_check_loop16 (s e) (p : Ptr) (hp : L p.buf) : Uses L W (fun r : Ptr => L r.buf) (check_loop16 s e p) := by
  unfold check_loop16; uses [uses_check_loop16] []
termination_by e - p.off
decreasing_by simp only [Ptr.add]; omega
theorem uses_check_tail {p : Ptr} (hp : L p.buf) (s n) : Uses' L W (check_tail s p n) := by
  unfold check_tail; uses [uses_check_short, uses_check_short_sc] []
theorem uses_check_simd {p : Ptr} (hp : L p.buf) (s n) : Uses' L W (check_simd s p n) := by
  unfold check_simd; uses [uses_check_tail] [uses_check_loop32, uses_check_loop16]
theorem uses_check_auto {p : Ptr} (hp : L p.buf) (i n) : Uses' L W (check_auto i p n) := by
  unfold check_auto check_fallback; uses [uses_check_short, uses_check_simd] []

theorem uses_encode_bits {p q : Ptr} (hp : L p.buf) (hq : W q.buf) (cs) : Uses' L W (encode_bits p q cs) := by
  unfold encode_bits; uses [] []
theorem uses_encode_short_loop (e) (p q : Ptr) (cs) (hp : L p.buf) (hq : W q.buf) : Uses' L W (encode_short_loop e p q cs) := by
  unfold encode_short_loop; uses [uses_encode_bits, uses_encode_short_loop] []
termination_by e - p.off
decreasing_by simp only [Ptr.add]; omega
theorem uses_encode_short {p q : Ptr} (hp : L p.buf) (hq : W q.buf) (n cs) : Uses' L W (encode_short p n q cs) := by
  unfold encode_short; uses [uses_encode_short_loop] []
theorem uses_encode_long_inner (cs) : ∀ k p q, L p.buf → W q.buf → Uses' L W (encode_long_inner cs k p q)
  | 0, p, q, hp, hq => by unfold encode_long_inner; uses [] []
  | k + 1, p, q, hp, hq => by have ih := uses_encode_long_inner cs k; unfold encode_long_inner; uses [uses_encode_bits, ih] []
theorem uses_encode_long_loop (e) (p q : Ptr) (cs) (hp : L p.buf) (hq : W q.buf) :
    Uses L W (fun r : Ptr × Ptr => L r.1.buf ∧ W r.2.buf) (encode_long_loop e p q cs) := by
  unfold encode_long_loop; uses [uses_encode_long_inner, uses_encode_long_loop] []
termination_by e - p.off
decreasing_by simp only [Ptr.add]; omega
theorem uses_encode_long {p q : Ptr} (hp : L p.buf) (hq : W q.buf) (n c) : Uses' L W (encode_long p n q c) := by
  unfold encode_long; uses [uses_encode_short] [uses_encode_long_loop]
theorem uses_encode_loop32 (s lut e) (p q : Ptr) (hp : L p.buf) (hq : W q.buf) :
    Uses L W (fun r : Ptr × Ptr => L r.1.buf ∧ W r.2.buf) (encode_loop32 s lut e p q) := by
  unfold encode_loop32; uses [uses_encode_loop32] []
termination_by e - p.off
decreasing_by simp only [Ptr.add]; omega
theorem uses_encode_v256 {p q : Ptr} (hp : L p.buf) (hq : W q.buf) (s n c) : Uses' L W (encode_simd_v256 s p n q c) := by
  unfold encode_simd_v256; uses [uses_encode_short] [uses_encode_loop32]
theorem uses_encode_loop16 (s lut e) (p q : Ptr) (hp : L p.buf) (hq : W q.buf) :
    Uses L W (fun r : Ptr × Ptr => L r.1.buf ∧ W r.2.buf) (encode_loop16 s lut e p q) := by
  unfold encode_loop16; uses [uses_encode_loop16] []
termination_by e - p.off
decreasing_by simp only [Ptr.add]; omega
theorem uses_encode_v128 {p q : Ptr} (hp : L p.buf) (hq : W q.buf) (s n c) : Uses' L W (encode_simd_v128 s p n q c) := by
  unfold encode_simd_v128; uses [uses_encode_short] [uses_encode_loop16]
theorem uses_encode_loop_sse2 (o e) (p q : Ptr) (hp : L p.buf) (hq : W q.buf) :
    Uses L W (fun r : Ptr × Ptr => L r.1.buf ∧ W r.2.buf) (encode_loop_sse2 o e p q) := by
  unfold encode_loop_sse2; uses [uses_encode_loop_sse2] []
termination_by e - p.off
decreasing_by simp only [Ptr.add]; omega
theorem uses_encode_sse2 {p q : Ptr} (hp : L p.buf) (hq : W q.buf) (n c) : Uses' L W (encode_simd_sse2 p n q c) := by
  unfold encode_simd_sse2; uses [uses_encode_short] [uses_encode_loop_sse2]
theorem uses_encode_auto {p q : Ptr} (hp : L p.buf) (hq : W q.buf) (i n c) : Uses' L W (encode_auto i p n q c) := by
  unfold encode_auto encode_fallback encode_simd; uses [uses_encode_long, uses_encode_sse2, uses_encode_v256, uses_encode_v128] []

theorem uses_decode_bits {p q : Ptr} (hp : L p.buf) (hq : W q.buf) : Uses' L W (decode_bits p q) := by
  unfold decode_bits; uses [] []
theorem uses_decode_short_loop1 (e) (p q : Ptr) (hp : L p.buf) (hq : W q.buf) : Uses' L W (decode_short_loop1 e p q) := by
  unfold decode_short_loop1; uses [uses_decode_bits, uses_decode_short_loop1] []
termination_by e - p.off
decreasing_by simp only [Ptr.add]; omega
theorem uses_decode_short_loop2 (e) (p q : Ptr) (f) (hp : L p.buf) (hq : W q.buf) : Uses' L W (decode_short_loop2 e p q f) := by
  unfold decode_short_loop2; uses [uses_decode_bits, uses_decode_short_loop2] []
termination_by e - p.off
decreasing_by simp only [Ptr.add]; omega
theorem uses_decode_short {p q : Ptr} (hp : L p.buf) (hq : W q.buf) (s n) : Uses' L W (decode_short s p n q) := by
  unfold decode_short; uses [uses_decode_short_loop1, uses_decode_short_loop2] []
theorem uses_decode_long_inner : ∀ k p q f, L p.buf → W q.buf → Uses' L W (decode_long_inner k p q f)
  | 0, p, q, f, hp, hq => by unfold decode_long_inner; uses [] []
  | k + 1, p, q, f, hp, hq => by have ih := uses_decode_long_inner k; unfold decode_long_inner; uses [uses_decode_bits, ih] []
theorem uses_decode_long_loop (e) (p q : Ptr) (hp : L p.buf) (hq : W q.buf) :
    Uses L W (fun r : Ptr × Ptr => L r.1.buf ∧ W r.2.buf) (decode_long_loop e p q) := by
  unfold decode_long_loop; uses [uses_decode_long_inner, uses_decode_long_loop] []
termination_by e - p.off
decreasing_by simp only [Ptr.add]; omega
theorem uses_decode_long {p q : Ptr} (hp : L p.buf) (hq : W q.buf) (n) : Uses' L W (decode_long p n q) := by
  unfold decode_long; uses [uses_decode_short] [uses_decode_long_loop]
theorem uses_decode16 {p q : Ptr} (hp : L p.buf) (hq : W q.buf) (s) : Uses' L W (decode16 s p q) := by
  unfold decode16; uses [] []
theorem uses_decode32 {p q : Ptr} (hp : L p.buf) (hq : W q.buf) (s) : Uses' L W (decode32 s p q) := by
  unfold decode32; uses [] []
theorem uses_decode_loop64 (s e) (p q : Ptr) (hp : L p.buf) (hq : W q.buf) :
    Uses L W (fun r : Ptr × Ptr => L r.1.buf ∧ W r.2.buf) (decode_loop64 s e p q) := by
  unfold decode_loop64; uses [uses_decode_loop64] []
termination_by e - p.off
decreasing_by simp only [Ptr.add]; omega
theorem uses_decode_tail16 {p q : Ptr} (hp : L p.buf) (hq : W q.buf) (s n) : Uses' L W (decode_tail16 s p n q) := by
  unfold decode_tail16; uses [uses_decode16, uses_decode_short] []
theorem uses_decode_v256 {p q : Ptr} (hp : L p.buf) (hq : W q.buf) (s n) : Uses' L W (decode_simd_v256 s p n q) := by
  unfold decode_simd_v256; uses [uses_decode16, uses_decode32, uses_decode_tail16] [uses_decode_loop64]
theorem uses_decode_loop32 (s e) (p q : Ptr) (hp : L p.buf) (hq : W q.buf) :
    Uses L W (fun r : Ptr × Ptr => L r.1.buf ∧ W r.2.buf) (decode_loop32 s e p q) := by
  unfold decode_loop32; uses [uses_decode32, uses_decode_loop32] []
termination_by e - p.off
decreasing_by simp only [Ptr.add]; omega
theorem uses_decode_v128 {p q : Ptr} (hp : L p.buf) (hq : W q.buf) (s n) : Uses' L W (decode_simd_v128 s p n q) := by
  unfold decode_simd_v128; uses [uses_decode_tail16] [uses_decode_loop32]
theorem uses_decode_loop_sse2 (e) (p q : Ptr) (hp : L p.buf) (hq : W q.buf) :
    Uses L W (fun r : Ptr × Ptr => L r.1.buf ∧ W r.2.buf) (decode_loop_sse2 e p q) := by
  unfold decode_loop_sse2; uses [uses_decode_loop_sse2] []
termination_by e - p.off
decreasing_by simp only [Ptr.add]; omega
theorem uses_decode_sse2 {p q : Ptr} (hp : L p.buf) (hq : W q.buf) (n) : Uses' L W (decode_simd_sse2 p n q) := by
  unfold decode_simd_sse2; uses [uses_decode_short] [uses_decode_loop_sse2]
theorem uses_decode_auto {p q : Ptr} (hp : L p.buf) (hq : W q.buf) (i n) : Uses' L W (decode_auto i p n q) := by
  unfold decode_auto decode_fallback decode_simd; uses [uses_decode_long, uses_decode_sse2, uses_decode_v256, uses_decode_v128] []

theorem uses_encode {src dst : Slice} (hp : L src.ptr.buf) (hq : W dst.ptr.buf) (P i c) : Uses' L W (encode P i src dst c) := by
  unfold encode; uses [uses_encode_auto] []
theorem uses_decode {src dst : Slice} (hp : L src.ptr.buf) (hq : W dst.ptr.buf) (i) : Uses' L W (decode i src dst) := by
  unfold decode; uses [uses_decode_auto] []
theorem uses_decode_inplace {d : Slice} (hp : L d.ptr.buf) (hq : W d.ptr.buf) (i) : Uses' L W (decode_inplace i d) := by
  unfold decode_inplace; uses [uses_decode_auto] []
theorem uses_encode_raw {p q : Ptr} (hp : L p.buf) (hq : W q.buf) (P i n c) : Uses' L W (encode_raw P i p n q c) := by
  unfold encode_raw; uses [uses_encode_auto] []
theorem uses_decode_raw {p q : Ptr} (hp : L p.buf) (hq : W q.buf) (i n) : Uses' L W (decode_raw i p n q) := by
  unfold decode_raw; uses [uses_decode_auto] []

end Hex

namespace Uuid

theorem uses_check_hyphens {p : Ptr} (hp : L p.buf) : Uses' L W (check_hyphens p) := by
  unfold check_hyphens; uses [] []
theorem uses_parse_loop {p q : Ptr} (hp : L p.buf) (hq : W q.buf) : ∀ is j f, Uses' L W (parse_hyphenated_loop p q is j f)
  | [], j, f => by unfold parse_hyphenated_loop; uses [] []
  | i :: is, j, f => by have ih := uses_parse_loop hp hq is; unfold parse_hyphenated_loop; uses [ih] []
theorem uses_parse_simple_auto {p q : Ptr} (hp : L p.buf) (hq : W q.buf) (i) : Uses' L W (parse_simple_auto i p q) := by
  unfold parse_simple_auto parse_simple_fallback parse_simple_simd parse_simple_simd_sse2; uses [] []
theorem uses_parse_hyphenated_auto {p q : Ptr} (hp : L p.buf) (hq : W q.buf) (i) : Uses' L W (parse_hyphenated_auto i p q) := by
  unfold parse_hyphenated_auto parse_hyphenated_fallback parse_hyphenated_simd; uses [uses_check_hyphens, uses_parse_loop] []
theorem uses_format_group {p q : Ptr} (hp : L p.buf) (hq : W q.buf) (lut i) (j e : Nat) : Uses' L W (format_group lut p q i j e) := by
  unfold format_group; uses [uses_format_group] []
termination_by e - j
theorem uses_format_groups {p q : Ptr} (hp : L p.buf) (hq : W q.buf) (lut) : ∀ gs g i, Uses' L W (format_groups lut p q gs g i)
  | [], g, i => by unfold format_groups; uses [] []
  | (a, b) :: gs, g, i => by have ih := uses_format_groups hp hq lut gs; unfold format_groups; uses [uses_format_group, ih] []
theorem uses_format_simple_auto {p q : Ptr} (hp : L p.buf) (hq : W q.buf) (i c) : Uses' L W (format_simple_auto i p q c) := by
  unfold format_simple_auto format_simple_fallback format_simple_simd format_simple_simd_sse2; uses [] []
theorem uses_format_hyphenated_auto {p q : Ptr} (hp : L p.buf) (hq : W q.buf) (i c) : Uses' L W (format_hyphenated_auto i p q c) := by
  unfold format_hyphenated_auto format_hyphenated_fallback format_hyphenated_simd; uses [uses_format_groups] []
theorem uses_hyphenated_start {src : Slice} (hp : L src.ptr.buf) : Uses L W (fun r : Ptr => L r.buf) (hyphenated_start src) := by
  unfold hyphenated_start; uses [] []
theorem uses_parse {src : Slice} {q : Ptr} (hp : L src.ptr.buf) (hq : W q.buf) (si hi) : Uses' L W (parse si hi src q) := by
  unfold parse; uses [uses_parse_simple_auto, uses_parse_hyphenated_auto] [uses_hyphenated_start]
theorem uses_parse_simple {src : Slice} {q : Ptr} (hp : L src.ptr.buf) (hq : W q.buf) (i) : Uses' L W (parse_simple i src q) := by
  unfold parse_simple; uses [uses_parse_simple_auto] []
theorem uses_parse_hyphenated {src : Slice} {q : Ptr} (hp : L src.ptr.buf) (hq : W q.buf) (i) : Uses' L W (parse_hyphenated i src q) := by
  unfold parse_hyphenated; uses [uses_parse_hyphenated_auto] []
theorem uses_format_simple {p q : Ptr} (hp : L p.buf) (hq : W q.buf) (i c) : Uses' L W (format_simple i p q c) := by
  unfold format_simple; uses [uses_format_simple_auto] []
theorem uses_format_hyphenated {p q : Ptr} (hp : L p.buf) (hq : W q.buf) (i c) : Uses' L W (format_hyphenated i p q c) := by
  unfold format_hyphenated; uses [uses_format_hyphenated_auto] []

end Uuid
end Hex
end Simd
