import Verif.Lemmas.Work
import Verif.Model.Forgiving
/-
The work of the functions of base64-simd.
-/
namespace Simd.Base64
open Vs

theorem cost_encode_bits24 (p q : Ptr) (cs) : Cost' (encode_bits24 p q cs) 14 := by
  unfold encode_bits24
  cost [Cost.forFrom (c := 2) ?_ 4 0]
theorem cost_encode_bits48 (p q : Ptr) (cs) : Cost' (encode_bits48 p q cs) 25 := by
  unfold encode_bits48; cost [Cost.forFrom (c := 2) ?_ 8 0]
theorem cost_encode_extra (p q : Ptr) (e cs pad) : Cost' (encode_extra e p q cs pad) 12 := by
  unfold encode_extra; cost []
theorem cost_encode_inner (cs) : ∀ k p q, Cost' (encode_inner cs k p q) (25 * k)
  | 0, p, q => by unfold encode_inner; cost []
  | k + 1, p, q => by have ih := cost_encode_inner cs k; unfold encode_inner; cost [cost_encode_bits48 .., ih ..]
theorem cost_encode_loop24 (cs) (p q : Ptr) (n : Nat) :
    Cost (fun (r : Ptr × Ptr × Nat) b => 5 * r.2.2 ≤ b) (encode_loop24 cs p q n) (5 * n) := by
  unfold encode_loop24; cost [cost_encode_inner .., cost_encode_loop24 ..]
termination_by n
theorem cost_encode_loop6 (cs) (p q : Ptr) (n : Nat) :
    Cost (fun (r : Ptr × Ptr × Nat) b => 5 * r.2.2 ≤ b) (encode_loop6 cs p q n) (5 * n) := by
  unfold encode_loop6; cost [cost_encode_bits48 .., cost_encode_loop6 ..]
termination_by n
theorem cost_encode_loop3 (cs e) (p q : Ptr) : Cost' (encode_loop3 cs e p q) (14 * ((e - p.off + 2) / 3)) := by
  unfold encode_loop3; cost [cost_encode_bits24 .., cost_encode_loop3 ..]
termination_by e - p.off
decreasing_by simp only [Ptr.add]; omega
theorem cost_encode_fallback (p q : Ptr) (n config) : Cost' (encode_fallback p n q config) (5 * n + 12) := by
  unfold encode_fallback; cost [cost_encode_extra .., cost_encode_loop24 .., cost_encode_loop6 .., cost_encode_loop3 ..]
theorem cost_encode_head (cs) : ∀ k p q n, Cost (fun (r : Ptr × Ptr × Nat) _ => r.2.2 + 3 * k = n) (encode_head cs k p q n) (14 * k)
  | 0, p, q, n => by unfold encode_head; cost []
  | k + 1, p, q, n => by have ih := cost_encode_head cs k; unfold encode_head; cost [cost_encode_bits24 .., ih ..]
theorem cost_encode_loop_x2 (s lut) (p q : Ptr) (n : Nat) :
    Cost (fun (r : Ptr × Ptr × Nat) b => 5 * r.2.2 ≤ b) (encode_loop_x2 s lut p q n) (5 * n) := by
  unfold encode_loop_x2; cost [cost_encode_loop_x2 ..]
termination_by n
theorem cost_encode_simd1 (p q : Ptr) (s n k) : Cost (fun (r : Ptr × Ptr × Nat) b => 5 * r.2.2 ≤ b) (encode_simd1 s p q n k) (5 * n) := by
  unfold encode_simd1; cost [cost_encode_loop_x2 .., cost_encode_head ..]
theorem cost_encode_simd2 (p q : Ptr) (s n k) : Cost (fun (r : Ptr × Ptr × Nat) b => 5 * r.2.2 ≤ b) (encode_simd2 s p q n k) (5 * n) := by
  unfold encode_simd2; cost []
theorem cost_encode_simd (p q : Ptr) (s n config) : Cost' (encode_simd s p n q config) (5 * n + 12) := by
  unfold encode_simd; cost [cost_encode_fallback .., cost_encode_simd1 .., cost_encode_simd2 ..]
theorem cost_encode_auto (p q : Ptr) (i n config) : Cost' (encode_auto i p n q config) (5 * n + 12) := by
  cases i
  · exact cost_encode_fallback ..
  · exact cost_encode_simd ..

theorem cost_count_pad (d : Slice) : Cost' (count_pad d) 4 := by
  unfold count_pad; cost []
theorem cost_data_length (d : Slice) (config) : Cost (fun n _ => n ≤ d.len) (data_length d config) 4 := by
  unfold data_length; cost [cost_count_pad ..]
theorem cost_decoded_length (d : Slice) (config) : Cost (fun (r : Nat × Nat) _ => r.1 ≤ d.len) (decoded_length d config) 4 := by
  unfold decoded_length; cost [cost_data_length ..]
theorem cost_decode_ascii8 (p : Ptr) (q : Option Ptr) (t) : Cost' (decode_ascii8 p q t) (if q.isSome then 25 else 16) := by
  have hb : ∀ x : BitVec 64, (toBE 8 x).length = 8 := fun x => by simp [toBE]
  cases q <;> unfold decode_ascii8 <;> simp only [Option.isSome, if_true, Bool.false_eq_true, if_false] <;> cost [Cost.foldFrom (c := 2) ?_ 8 0 _]
  rw [hb]; omega
theorem cost_decode_ascii4 (p : Ptr) (q : Option Ptr) (t) : Cost' (decode_ascii4 p q t) (if q.isSome then 14 else 8) := by
  cases q <;> unfold decode_ascii4 <;> simp only [Option.isSome, if_true, Bool.false_eq_true, if_false] <;> cost [Cost.foldFrom (c := 2) ?_ 4 0 _]
theorem cost_decode_extra (p : Ptr) (q : Option Ptr) (e t f) : Cost' (decode_extra e p q t f) (if q.isSome then 8 else 4) := by
  cases q <;> unfold decode_extra <;> simp only [Option.isSome, if_true, Bool.false_eq_true, if_false] <;> cost []
theorem cost_ascii8 (p q : Ptr) (t) : Cost' (decode_ascii8 p (some q) t) 25 := cost_decode_ascii8 p _ t
theorem cost_ascii4 (p q : Ptr) (t) : Cost' (decode_ascii4 p (some q) t) 14 := cost_decode_ascii4 p _ t
theorem cost_dextra (p q : Ptr) (e t f) : Cost' (decode_extra e p (some q) t f) 8 := cost_decode_extra p _ e t f
theorem cost_check8 (p : Ptr) (t) : Cost' (decode_ascii8 p none t) 16 := cost_decode_ascii8 p _ t
theorem cost_check4 (p : Ptr) (t) : Cost' (decode_ascii4 p none t) 8 := cost_decode_ascii4 p _ t
theorem cost_cextra (p : Ptr) (e t f) : Cost' (decode_extra e p none t f) 4 := cost_decode_extra p _ e t f
theorem cost_decode_loop8 (t) (p q : Ptr) (n : Nat) :
    Cost (fun (r : Ptr × Ptr × Nat) b => 4 * r.2.2 ≤ b) (decode_loop8 t p q n) (4 * n) := by
  unfold decode_loop8; cost [cost_ascii8 .., cost_decode_loop8 ..]
termination_by n
theorem cost_decode_loop4 (t e) (p q : Ptr) : Cost' (decode_loop4 t e p q) (14 * ((e - p.off + 3) / 4)) := by
  unfold decode_loop4; cost [cost_ascii4 .., cost_decode_loop4 ..]
termination_by e - p.off
decreasing_by simp only [Ptr.add]; omega
theorem cost_decode_fallback (p q : Ptr) (n config) : Cost' (decode_fallback p q n config) (4 * n + 8) := by
  unfold decode_fallback; cost [cost_dextra .., cost_decode_loop8 .., cost_decode_loop4 ..]
theorem cost_decode_loop32 (s c d) (p q : Ptr) (n : Nat) :
    Cost (fun (r : Ptr × Ptr × Nat) b => 4 * r.2.2 ≤ b) (decode_loop32 s c d p q n) (4 * n) := by
  unfold decode_loop32; cost [cost_decode_loop32 ..]
termination_by n
theorem cost_decode_simd (p q : Ptr) (s n config) : Cost' (decode_simd s p q n config) (4 * n + 8) := by
  unfold decode_simd; cost [cost_decode_fallback .., cost_decode_loop32 ..]
theorem cost_decode_auto (p q : Ptr) (i n config) : Cost' (decode_auto i p q n config) (4 * n + 8) := by
  cases i
  · exact cost_decode_fallback ..
  · exact cost_decode_simd ..
theorem cost_check_loop8 (t) (p : Ptr) (n : Nat) : Cost (fun (r : Ptr × Nat) b => 2 * r.2 ≤ b) (check_loop8 t p n) (2 * n) := by
  unfold check_loop8; cost [cost_check8 .., cost_check_loop8 ..]
termination_by n
theorem cost_check_loop4 (t) (p : Ptr) (n : Nat) : Cost (fun (r : Ptr × Nat) b => 2 * r.2 ≤ b) (check_loop4 t p n) (2 * n) := by
  unfold check_loop4; cost [cost_check4 .., cost_check_loop4 ..]
termination_by n
theorem cost_check_fallback (p : Ptr) (n config) : Cost' (check_fallback p n config) (2 * n + 4) := by
  unfold check_fallback; cost [cost_cextra .., cost_check_loop8 .., cost_check_loop4 ..]
theorem cost_check_loop32 (s c) (p : Ptr) (n : Nat) : Cost (fun (r : Ptr × Nat) b => 2 * r.2 ≤ b) (check_loop32 s c p n) (2 * n) := by
  unfold check_loop32; cost [cost_check_loop32 ..]
termination_by n
theorem cost_check_simd (p : Ptr) (s n config) : Cost' (check_simd s p n config) (2 * n + 4) := by
  unfold check_simd; cost [cost_check_fallback .., cost_check_loop32 ..]
theorem cost_check_auto (p : Ptr) (i n config) : Cost' (check_auto i p n config) (2 * n + 4) := by
  cases i
  · exact cost_check_fallback ..
  · exact cost_check_simd ..
theorem cost_check (d : Slice) (i config) : Cost' (check i config d) (2 * d.len + 8) := by
  unfold check; cost [cost_decoded_length .., cost_check_auto ..]
theorem cost_encode (src dst : Slice) (P i config) : Cost' (encode P i config src dst) (5 * src.len + 12) := by
  unfold encode; cost [cost_encode_auto ..]
theorem cost_decode (src dst : Slice) (i config) : Cost' (decode i config src dst) (4 * src.len + 12) := by
  unfold decode; cost [cost_decoded_length .., cost_decode_auto ..]
theorem cost_decode_inplace (d : Slice) (i config) : Cost' (decode_inplace i config d) (4 * d.len + 12) := by
  unfold decode_inplace; cost [cost_decoded_length .., cost_decode_auto ..]

theorem cost_find_short_loop (e) (p : Ptr) : Cost' (find_short_loop e p) (2 * (e - p.off)) := by
  unfold find_short_loop lookup_ascii_whitespace; cost [cost_find_short_loop ..]
termination_by e - p.off
decreasing_by simp only [Ptr.add]; omega
theorem cost_find_non_ascii_whitespace_short (p : Ptr) (n) : Cost' (find_non_ascii_whitespace_short p n) (2 * n) := by
  unfold find_non_ascii_whitespace_short; cost [cost_find_short_loop ..]
theorem cost_find_loop32 (s e) (p : Ptr) :
    Cost (fun (r : Ptr) b => 64 * ((e - r.off + 31) / 32) ≤ b) (find_loop32 s e p) (64 * ((e - p.off + 31) / 32) + 34) := by
  unfold find_loop32; cost [cost_find_loop32 ..]
termination_by e - p.off
decreasing_by simp only [Ptr.add]; omega
theorem cost_find_loop16 (s e) (p : Ptr) :
    Cost (fun (r : Ptr) b => 32 * ((e - r.off + 15) / 16) ≤ b) (find_loop16 s e p) (32 * ((e - p.off + 15) / 16) + 17) := by
  unfold find_loop16; cost [cost_find_loop16 ..]
termination_by e - p.off
decreasing_by simp only [Ptr.add]; omega
theorem cost_find_simd_part (p : Ptr) (s n) : Cost (fun (r : Ptr) b => 2 * (p.off + n - r.off) ≤ b) (find_simd_part s p n) (2 * n + 51) := by
  unfold find_simd_part; cost [cost_find_loop16 .., cost_find_loop32 ..]
theorem cost_find_simd (p : Ptr) (s n) : Cost' (find_non_ascii_whitespace_simd s p n) (2 * n + 51) := by
  unfold find_non_ascii_whitespace_simd; cost [cost_find_non_ascii_whitespace_short .., cost_find_simd_part ..]
theorem cost_find_non_ascii_whitespace (d : Slice) (i) : Cost' (find_non_ascii_whitespace i d) (2 * d.len + 51) := by
  unfold find_non_ascii_whitespace; cost [cost_find_non_ascii_whitespace_short .., cost_find_simd ..]
theorem cost_remove_loop (e) (p q : Ptr) : Cost' (remove_loop e p q) (4 * (e - p.off)) := by
  unfold remove_loop lookup_ascii_whitespace; cost [cost_remove_loop ..]
termination_by e - p.off
decreasing_by all_goals (simp only [Ptr.add]; omega)
theorem cost_remove_ascii_whitespace_fallback (p q : Ptr) (n) : Cost' (remove_ascii_whitespace_fallback p n q) (4 * n) := by
  unfold remove_ascii_whitespace_fallback; cost [cost_remove_loop ..]
theorem cost_remove_inplace (d : Slice) (fi) : Cost (fun (r : Slice) _ => r.len ≤ d.len) (remove_ascii_whitespace_inplace fi d) (6 * d.len + 51) := by
  unfold remove_ascii_whitespace_inplace; cost [cost_find_non_ascii_whitespace .., cost_remove_ascii_whitespace_fallback ..]
theorem cost_forgiving_inplace (d : Slice) (fi di) : Cost' (forgiving_decode_inplace fi di d) (10 * d.len + 63) := by
  unfold forgiving_decode_inplace; cost [cost_decode_inplace .., cost_remove_inplace ..]
theorem cost_copy_nonoverlapping (p q : Ptr) (n) : Cost' (copy_nonoverlapping p q n) (2 * n + 2) := by
  unfold copy_nonoverlapping; cost []
theorem cost_copy_and_decode (src : Slice) (di pos dst) (hp : pos ≤ src.len) : Cost' (copy_and_decode di src pos dst) (8 * src.len + 14) := by
  unfold copy_and_decode
  cost [cost_copy_nonoverlapping .., cost_remove_ascii_whitespace_fallback .., cost_decode_inplace ..]
theorem cost_forgiving (src dst : Slice) (fi di) : Cost' (forgiving_decode fi di src dst) (10 * src.len + 65) := by
  unfold forgiving_decode
  cost [cost_find_non_ascii_whitespace .., cost_decode .., cost_copy_and_decode _ _ _ _ ?_]

end Simd.Base64
