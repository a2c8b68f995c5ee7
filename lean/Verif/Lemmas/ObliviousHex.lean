import Verif.Lemmas.Oblivious
import Verif.Model.Hex
import Verif.Model.Uuid
/-
The functions of hex-simd and uuid-simd make the same accesses whatever bytes they load.
-/
namespace Simd

section Hex
open Hex Vs

namespace Hex

theorem obl_check_short_loop (e) (p : Ptr) (f f') : Obl' (check_short_loop e p f) (check_short_loop e p f') := by
  unfold check_short_loop; obl [obl_check_short_loop] []
termination_by e - p.off
decreasing_by simp only [Ptr.add]; omega
theorem obl_check_short (p : Ptr) (n) : Obl' (check_short p n) (check_short p n) := by
  unfold check_short; obl [obl_check_short_loop] []
theorem obl_check_short_sc_loop (e) (p : Ptr) : Obl' (check_short_sc_loop e p) (check_short_sc_loop e p) := by
  unfold check_short_sc_loop; obl [obl_check_short_sc_loop] []
termination_by e - p.off
decreasing_by simp only [Ptr.add]; omega
theorem obl_check_short_sc (p : Ptr) (n) : Obl' (check_short_sc p n) (check_short_sc p n) := by
  unfold check_short_sc; obl [obl_check_short_sc_loop] []
theorem obl_check_loop32 (s e) (p : Ptr) : Obl Eq (check_loop32 s e p) (check_loop32 s e p) := by
  unfold check_loop32; obl [obl_check_loop32] []
termination_by e - p.off
decreasing_by simp only [Ptr.add]; omega
theorem obl_check_loop16 (s e) (p : Ptr) : Obl Eq (check_loop16 s e p) (check_loop16 s e p) := by
  unfold check_loop16; obl [obl_check_loop16] []
termination_by e - p.off
decreasing_by simp only [Ptr.add]; omega
theorem obl_check_tail (p : Ptr) (s n) : Obl' (check_tail s p n) (check_tail s p n) := by
  unfold check_tail; obl [obl_check_short, obl_check_short_sc] []
theorem obl_check_simd (p : Ptr) (s n) : Obl' (check_simd s p n) (check_simd s p n) := by
  unfold check_simd; obl [obl_check_tail] [obl_check_loop32, obl_check_loop16]
theorem obl_check_auto (p : Ptr) (i n) : Obl' (check_auto i p n) (check_auto i p n) := by
  unfold check_auto check_fallback; obl [obl_check_short, obl_check_simd] []

theorem obl_encode_bits (p q : Ptr) (cs) : Obl' (encode_bits p q cs) (encode_bits p q cs) := by
  unfold encode_bits; obl [] []
theorem obl_encode_short_loop (e) (p q : Ptr) (cs) : Obl' (encode_short_loop e p q cs) (encode_short_loop e p q cs) := by
  unfold encode_short_loop; obl [obl_encode_bits, obl_encode_short_loop] []
termination_by e - p.off
decreasing_by simp only [Ptr.add]; omega
theorem obl_encode_short (p q : Ptr) (n cs) : Obl' (encode_short p n q cs) (encode_short p n q cs) := by
  unfold encode_short; obl [obl_encode_short_loop] []
theorem obl_encode_long_inner (cs) : ∀ k p q, Obl' (encode_long_inner cs k p q) (encode_long_inner cs k p q)
  | 0, p, q => by unfold encode_long_inner; obl [] []
  | k + 1, p, q => by have ih := obl_encode_long_inner cs k; unfold encode_long_inner; obl [obl_encode_bits, ih] []
theorem obl_encode_long_loop (e) (p q : Ptr) (cs) :
    Obl Eq (encode_long_loop e p q cs) (encode_long_loop e p q cs) := by
  unfold encode_long_loop; obl [obl_encode_long_inner, obl_encode_long_loop] []
termination_by e - p.off
decreasing_by simp only [Ptr.add]; omega
theorem obl_encode_long (p q : Ptr) (n c) : Obl' (encode_long p n q c) (encode_long p n q c) := by
  unfold encode_long; obl [obl_encode_short] [obl_encode_long_loop]
theorem obl_encode_loop32 (s lut e) (p q : Ptr) :
    Obl Eq (encode_loop32 s lut e p q) (encode_loop32 s lut e p q) := by
  unfold encode_loop32; obl [obl_encode_loop32] []
termination_by e - p.off
decreasing_by simp only [Ptr.add]; omega
theorem obl_encode_v256 (p q : Ptr) (s n c) : Obl' (encode_simd_v256 s p n q c) (encode_simd_v256 s p n q c) := by
  unfold encode_simd_v256; obl [obl_encode_short] [obl_encode_loop32]
theorem obl_encode_loop16 (s lut e) (p q : Ptr) :
    Obl Eq (encode_loop16 s lut e p q) (encode_loop16 s lut e p q) := by
  unfold encode_loop16; obl [obl_encode_loop16] []
termination_by e - p.off
decreasing_by simp only [Ptr.add]; omega
theorem obl_encode_v128 (p q : Ptr) (s n c) : Obl' (encode_simd_v128 s p n q c) (encode_simd_v128 s p n q c) := by
  unfold encode_simd_v128; obl [obl_encode_short] [obl_encode_loop16]
theorem obl_encode_loop_sse2 (o e) (p q : Ptr) :
    Obl Eq (encode_loop_sse2 o e p q) (encode_loop_sse2 o e p q) := by
  unfold encode_loop_sse2; obl [obl_encode_loop_sse2] []
termination_by e - p.off
decreasing_by simp only [Ptr.add]; omega
theorem obl_encode_sse2 (p q : Ptr) (n c) : Obl' (encode_simd_sse2 p n q c) (encode_simd_sse2 p n q c) := by
  unfold encode_simd_sse2; obl [obl_encode_short] [obl_encode_loop_sse2]
theorem obl_encode_auto (p q : Ptr) (i n c) : Obl' (encode_auto i p n q c) (encode_auto i p n q c) := by
  unfold encode_auto encode_fallback encode_simd; obl [obl_encode_long, obl_encode_sse2, obl_encode_v256, obl_encode_v128] []

theorem obl_decode_bits (p q : Ptr) : Obl' (decode_bits p q) (decode_bits p q) := by
  unfold decode_bits; obl [] []
theorem obl_decode_short_loop1 (e) (p q : Ptr) : Obl' (decode_short_loop1 e p q) (decode_short_loop1 e p q) := by
  unfold decode_short_loop1; obl [obl_decode_bits, obl_decode_short_loop1] []
termination_by e - p.off
decreasing_by simp only [Ptr.add]; omega
theorem obl_decode_short_loop2 (e) (p q : Ptr) (f f') : Obl' (decode_short_loop2 e p q f) (decode_short_loop2 e p q f') := by
  unfold decode_short_loop2; obl [obl_decode_bits, obl_decode_short_loop2] []
termination_by e - p.off
decreasing_by simp only [Ptr.add]; omega
theorem obl_decode_short (p q : Ptr) (s n) : Obl' (decode_short s p n q) (decode_short s p n q) := by
  unfold decode_short; obl [obl_decode_short_loop1, obl_decode_short_loop2] []
theorem obl_decode_long_inner : ∀ k p q f f', Obl' (decode_long_inner k p q f) (decode_long_inner k p q f')
  | 0, p, q, f, f' => by unfold decode_long_inner; obl [] []
  | k + 1, p, q, f, f' => by have ih := obl_decode_long_inner k; unfold decode_long_inner; obl [obl_decode_bits, ih] []
theorem obl_decode_long_loop (e) (p q : Ptr) :
    Obl Eq (decode_long_loop e p q) (decode_long_loop e p q) := by
  unfold decode_long_loop; obl [obl_decode_long_inner, obl_decode_long_loop] []
termination_by e - p.off
decreasing_by simp only [Ptr.add]; omega
theorem obl_decode_long (p q : Ptr) (n) : Obl' (decode_long p n q) (decode_long p n q) := by
  unfold decode_long; obl [obl_decode_short] [obl_decode_long_loop]
theorem obl_decode16 (p q : Ptr) (s) : Obl' (decode16 s p q) (decode16 s p q) := by
  unfold decode16; obl [] []
theorem obl_decode32 (p q : Ptr) (s) : Obl' (decode32 s p q) (decode32 s p q) := by
  unfold decode32; obl [] []
theorem obl_decode_loop64 (s e) (p q : Ptr) :
    Obl Eq (decode_loop64 s e p q) (decode_loop64 s e p q) := by
  unfold decode_loop64; obl [obl_decode_loop64] []
termination_by e - p.off
decreasing_by simp only [Ptr.add]; omega
theorem obl_decode_tail16 (p q : Ptr) (s n) : Obl' (decode_tail16 s p n q) (decode_tail16 s p n q) := by
  unfold decode_tail16; obl [obl_decode16, obl_decode_short] []
theorem obl_decode_v256 (p q : Ptr) (s n) : Obl' (decode_simd_v256 s p n q) (decode_simd_v256 s p n q) := by
  unfold decode_simd_v256; obl [obl_decode16, obl_decode32, obl_decode_tail16] [obl_decode_loop64]
theorem obl_decode_loop32 (s e) (p q : Ptr) :
    Obl Eq (decode_loop32 s e p q) (decode_loop32 s e p q) := by
  unfold decode_loop32; obl [obl_decode32, obl_decode_loop32] []
termination_by e - p.off
decreasing_by simp only [Ptr.add]; omega
theorem obl_decode_v128 (p q : Ptr) (s n) : Obl' (decode_simd_v128 s p n q) (decode_simd_v128 s p n q) := by
  unfold decode_simd_v128; obl [obl_decode_tail16] [obl_decode_loop32]
theorem obl_decode_loop_sse2 (e) (p q : Ptr) :
    Obl Eq (decode_loop_sse2 e p q) (decode_loop_sse2 e p q) := by
  unfold decode_loop_sse2; obl [obl_decode_loop_sse2] []
termination_by e - p.off
decreasing_by simp only [Ptr.add]; omega
theorem obl_decode_sse2 (p q : Ptr) (n) : Obl' (decode_simd_sse2 p n q) (decode_simd_sse2 p n q) := by
  unfold decode_simd_sse2; obl [obl_decode_short] [obl_decode_loop_sse2]
theorem obl_decode_auto (p q : Ptr) (i n) : Obl' (decode_auto i p n q) (decode_auto i p n q) := by
  unfold decode_auto decode_fallback decode_simd; obl [obl_decode_long, obl_decode_sse2, obl_decode_v256, obl_decode_v128] []

theorem obl_encode (src dst : Slice) (P i c) : Obl' (encode P i src dst c) (encode P i src dst c) := by
  unfold encode; obl [obl_encode_auto] []
theorem obl_decode (src dst : Slice) (i) : Obl' (decode i src dst) (decode i src dst) := by
  unfold decode; obl [obl_decode_auto] []
theorem obl_decode_inplace (d : Slice) (i) : Obl' (decode_inplace i d) (decode_inplace i d) := by
  unfold decode_inplace; obl [obl_decode_auto] []
theorem obl_encode_raw (p q : Ptr) (P i n c) : Obl' (encode_raw P i p n q c) (encode_raw P i p n q c) := by
  unfold encode_raw; obl [obl_encode_auto] []
theorem obl_decode_raw (p q : Ptr) (i n) : Obl' (decode_raw i p n q) (decode_raw i p n q) := by
  unfold decode_raw; obl [obl_decode_auto] []

end Hex

namespace Uuid

theorem obl_check_hyphens (p : Ptr) : Obl' (check_hyphens p) (check_hyphens p) := by
  unfold check_hyphens; obl [] []
theorem obl_parse_loop (p q : Ptr) : ∀ is j f f', Obl' (parse_hyphenated_loop p q is j f) (parse_hyphenated_loop p q is j f')
  | [], j, f, f' => by unfold parse_hyphenated_loop; obl [] []
  | i :: is, j, f, f' => by have ih := obl_parse_loop p q is; unfold parse_hyphenated_loop; obl [ih] []
theorem obl_parse_simple_auto (p q : Ptr) (i) : Obl' (parse_simple_auto i p q) (parse_simple_auto i p q) := by
  unfold parse_simple_auto parse_simple_fallback parse_simple_simd parse_simple_simd_sse2; obl [] []
theorem obl_parse_hyphenated_auto (p q : Ptr) (i) : Obl' (parse_hyphenated_auto i p q) (parse_hyphenated_auto i p q) := by
  unfold parse_hyphenated_auto parse_hyphenated_fallback parse_hyphenated_simd; obl [obl_check_hyphens, obl_parse_loop] []
theorem obl_format_group (p q : Ptr) (lut i) (j e : Nat) : Obl Eq (format_group lut p q i j e) (format_group lut p q i j e) := by
  unfold format_group; obl [obl_format_group] []
termination_by e - j
theorem obl_format_groups (p q : Ptr) (lut) : ∀ gs g i, Obl' (format_groups lut p q gs g i) (format_groups lut p q gs g i)
  | [], g, i => by unfold format_groups; obl [] []
  | (a, b) :: gs, g, i => by have ih := obl_format_groups p q lut gs; unfold format_groups; obl [ih] [obl_format_group]
theorem obl_format_simple_auto (p q : Ptr) (i c) : Obl' (format_simple_auto i p q c) (format_simple_auto i p q c) := by
  unfold format_simple_auto format_simple_fallback format_simple_simd format_simple_simd_sse2; obl [] []
theorem obl_get_lane7 (s a b) : Obl (fun x y : List Byte => x.length = y.length) (liftO (i16x8_get_lane7 s a)) (liftO (i16x8_get_lane7 s b)) := by
  unfold i16x8_get_lane7
  repeat' split
  all_goals first | exact Obl.ret (by simp [extractLane]) | exact Obl.panic_l
theorem obl_get_lane3 (s a b) : Obl (fun x y : List Byte => x.length = y.length) (liftO (i32x4_get_lane3 s a)) (liftO (i32x4_get_lane3 s b)) := by
  unfold i32x4_get_lane3
  repeat' split
  all_goals first | exact Obl.ret (by simp [extractLane]) | exact Obl.panic_l
theorem obl_format_hyphenated_simd (p q : Ptr) (s c) : Obl' (format_hyphenated_simd s p q c) (format_hyphenated_simd s p q c) := by
  unfold format_hyphenated_simd
  refine Obl.seq (Obl.v128_load _ _) fun _ _ => Obl.seq (Obl.liftO _ _) fun _ _ => Obl.seq (Obl.liftO _ _) fun _ _ => Obl.seq (Obl.liftO _ _) fun _ _ =>
    Obl.seq (Obl.v256_store _ _ _ _) fun _ _ => Obl.bind (obl_get_lane7 _ _ _) fun _ _ h1 => Obl.bind (obl_get_lane3 _ _ _) fun _ _ h2 =>
    Obl.seq (Obl.padd _ _ _ _) fun _ _ => Obl.seq (Obl.storeBytes h1) fun _ _ => Obl.seq (Obl.padd _ _ _ _) fun _ _ => Obl.storeBytes h2
theorem obl_format_hyphenated_auto (p q : Ptr) (i c) : Obl' (format_hyphenated_auto i p q c) (format_hyphenated_auto i p q c) := by
  unfold format_hyphenated_auto format_hyphenated_fallback; obl [obl_format_groups, obl_format_hyphenated_simd] []
theorem obl_hyphenated_start (src : Slice) : Obl Eq (hyphenated_start src) (hyphenated_start src) := by
  unfold hyphenated_start; obl [] []
theorem obl_parse (src : Slice) (q : Ptr) (si hi) : Obl' (parse si hi src q) (parse si hi src q) := by
  unfold parse; obl [obl_parse_simple_auto, obl_parse_hyphenated_auto] [obl_hyphenated_start]
theorem obl_parse_simple (src : Slice) (q : Ptr) (i) : Obl' (parse_simple i src q) (parse_simple i src q) := by
  unfold parse_simple; obl [obl_parse_simple_auto] []
theorem obl_parse_hyphenated (src : Slice) (q : Ptr) (i) : Obl' (parse_hyphenated i src q) (parse_hyphenated i src q) := by
  unfold parse_hyphenated; obl [obl_parse_hyphenated_auto] []
theorem obl_format_simple (p q : Ptr) (i c) : Obl' (format_simple i p q c) (format_simple i p q c) := by
  unfold format_simple; obl [obl_format_simple_auto] []
theorem obl_format_hyphenated (p q : Ptr) (i c) : Obl' (format_hyphenated i p q c) (format_hyphenated i p q c) := by
  unfold format_hyphenated; obl [obl_format_hyphenated_auto] []

end Uuid
end Hex
end Simd
