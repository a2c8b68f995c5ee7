import Verif.Lemmas.Work
import Verif.Model.Base32
/-
The work of the functions of base32-simd.
-/
namespace Simd.Base32
open Vs

theorem cost_encode_bits (q : Ptr) (N cs x) (h : 1 ≤ N) : Cost' (encode_bits N q cs x) (2 * N) := by
  unfold encode_bits; cost [Cost.forFrom (c := 2) ?_ (N - 1) 1]
theorem cost_read_be_bytes (p : Ptr) (w N) : Cost' (read_be_bytes w N p) (2 * N) := by
  unfold read_be_bytes; cost [Cost.foldFrom (c := 2) ?_ N 0 _]
theorem cost_write_pad (q : Ptr) (i b) : Cost' (write_pad q i b) (2 * (8 - i)) := by
  unfold write_pad; cost [Cost.forFrom (c := 2) ?_ (8 - i) i]
theorem cost_encode_extra (p q : Ptr) (w e cs pad) : Cost' (encode_extra w p e q cs pad) 24 := by
  unfold encode_extra; cost [cost_read_be_bytes .., cost_encode_bits _ _ _ _ ?_, cost_write_pad ..]
theorem cost_encode_loop5 (w cs e) (p q : Ptr) : Cost' (encode_loop5 w cs e p q) (26 * ((e - p.off + 4) / 5)) := by
  unfold encode_loop5; cost [cost_read_be_bytes .., cost_encode_bits _ _ _ _ ?_, cost_encode_loop5 ..]
termination_by e - p.off
decreasing_by simp only [Ptr.add]; omega
theorem cost_encode_fallback (p q : Ptr) (w n k pad) : Cost' (encode_fallback w p n q k pad) (6 * n + 24) := by
  unfold encode_fallback; cost [cost_encode_extra .., cost_encode_loop5 ..]
theorem cost_encode_head (w cs) : ∀ k p q, Cost' (encode_head w cs k p q) (26 * k)
  | 0, p, q => by unfold encode_head; cost []
  | k + 1, p, q => by have ih := cost_encode_head w cs k; unfold encode_head; cost [cost_read_be_bytes .., cost_encode_bits _ _ _ _ ?_, ih ..]
theorem cost_encode_loop20 (s lut) (p q : Ptr) (n : Nat) :
    Cost (fun (r : Ptr × Ptr × Nat) b => 6 * r.2.2 ≤ b) (encode_loop20 s lut p q n) (6 * n) := by
  unfold encode_loop20; cost [cost_encode_loop20 ..]
termination_by n
theorem cost_encode_simd1 (p q : Ptr) (w s n k) : Cost (fun (r : Ptr × Ptr × Nat) b => 6 * r.2.2 ≤ b) (encode_simd1 w s p q n k) (6 * n) := by
  unfold encode_simd1; cost [cost_encode_loop20 .., cost_encode_head ..]
theorem cost_encode_simd (p q : Ptr) (w s n k pad) : Cost' (encode_simd w s p n q k pad) (6 * n + 24) := by
  unfold encode_simd; cost [cost_encode_fallback .., cost_encode_simd1 ..]
theorem cost_encode_auto (p q : Ptr) (w i n k pad) : Cost' (encode_auto w i p n q k pad) (6 * n + 24) := by
  cases i
  · exact cost_encode_fallback ..
  · exact cost_encode_simd ..
theorem cost_data_length (d : Slice) (b) : Cost (fun n _ => n ≤ d.len) (data_length d b) 7 := by
  unfold data_length; cost []
theorem cost_decoded_length (d : Slice) (b) : Cost (fun (r : Nat × Nat) _ => r.1 ≤ d.len) (decoded_length d b) 7 := by
  unfold decoded_length; cost [cost_data_length ..]
theorem cost_decode_bits (p : Ptr) (N t) : Cost' (decode_bits N p t) (2 * N) := by
  unfold decode_bits; cost [Cost.foldFrom (c := 2) ?_ N 0 _]
theorem cost_write_be_bytes (q : Ptr) (w N x) : Cost' (write_be_bytes w N q x) (2 * N) := by
  have h2 : ∀ x : BitVec 16, (Base64.toBE 2 x).length = 2 := fun x => by simp [Base64.toBE]
  have h4 : ∀ x : BitVec 32, (Base64.toBE 4 x).length = 4 := fun x => by simp [Base64.toBE]
  unfold write_be_bytes; cost [Cost.forFrom (c := 2) ?_ N 0]
  all_goals first | (rw [h2]; omega) | (rw [h4]; omega)
theorem cost_write_opt (w N) (q : Option Ptr) (x) : Cost' (write_opt w N q x) (if q.isSome then 2 * N else 0) := by
  cases q
  · exact trivial
  · exact cost_write_be_bytes ..
theorem cost_dextra (p q : Ptr) (w e t) : Cost' (decode_extra w p e (some q) t) 22 := by
  unfold decode_extra write_opt; cost [cost_decode_bits .., cost_write_be_bytes ..]
theorem cost_cextra (p : Ptr) (w e t) : Cost' (decode_extra w p e none t) 14 := by
  unfold decode_extra write_opt; cost [cost_decode_bits ..]
theorem cost_decode_loop8 (w t e) (p q : Ptr) : Cost' (decode_loop8 w t e p q) (26 * ((e - p.off + 7) / 8)) := by
  unfold decode_loop8; cost [cost_decode_bits .., cost_write_be_bytes .., cost_decode_loop8 ..]
termination_by e - p.off
decreasing_by simp only [Ptr.add]; omega
theorem cost_decode_fallback (p q : Ptr) (w n k) : Cost' (decode_fallback w p n q k) (4 * n + 22) := by
  unfold decode_fallback; cost [cost_dextra .., cost_decode_loop8 ..]
theorem cost_decode_loop32 (s c d) (p q : Ptr) (n : Nat) :
    Cost (fun (r : Ptr × Ptr × Nat) b => 4 * r.2.2 ≤ b) (decode_loop32 s c d p q n) (4 * n) := by
  unfold decode_loop32; cost [cost_decode_loop32 ..]
termination_by n
theorem cost_decode_simd (p q : Ptr) (w s n k) : Cost' (decode_simd w s p n q k) (4 * n + 22) := by
  unfold decode_simd; cost [cost_decode_fallback .., cost_decode_loop32 ..]
theorem cost_decode_auto (p q : Ptr) (w i n k) : Cost' (decode_auto w i p n q k) (4 * n + 22) := by
  cases i
  · exact cost_decode_fallback ..
  · exact cost_decode_simd ..
theorem cost_check_loop8 (t e) (p : Ptr) : Cost' (check_loop8 t e p) (16 * ((e - p.off + 7) / 8)) := by
  unfold check_loop8; cost [cost_decode_bits .., cost_check_loop8 ..]
termination_by e - p.off
decreasing_by simp only [Ptr.add]; omega
theorem cost_check_fallback (p : Ptr) (n k) : Cost' (check_fallback p n k) (2 * n + 14) := by
  unfold check_fallback; cost [cost_cextra .., cost_check_loop8 ..]
theorem cost_check_loop32 (s c e) (p : Ptr) : Cost' (check_loop32 s c e p) (34 * ((e - p.off + 31) / 32)) := by
  unfold check_loop32; cost [cost_check_loop32 ..]
termination_by e - p.off
decreasing_by simp only [Ptr.add]; omega
theorem cost_check_simd (p : Ptr) (s n k) : Cost' (check_simd s p n k) (2 * n + 14) := by
  unfold check_simd; cost [cost_check_fallback .., cost_check_loop32 ..]
theorem cost_check_auto (p : Ptr) (i n k) : Cost' (check_auto i p n k) (2 * n + 14) := by
  cases i
  · exact cost_check_fallback ..
  · exact cost_check_simd ..
theorem cost_check (d : Slice) (i config) : Cost' (check i config d) (2 * d.len + 21) := by
  unfold check; cost [cost_decoded_length .., cost_check_auto ..]
theorem cost_encode (src dst : Slice) (P w i config) : Cost' (encode P w i config src dst) (6 * src.len + 24) := by
  unfold encode; cost [cost_encode_auto ..]
theorem cost_decode (src dst : Slice) (w i config) : Cost' (decode w i config src dst) (4 * src.len + 29) := by
  unfold decode; cost [cost_decoded_length .., cost_decode_auto ..]
theorem cost_decode_inplace (d : Slice) (w i config) : Cost' (decode_inplace w i config d) (4 * d.len + 29) := by
  unfold decode_inplace; cost [cost_decoded_length .., cost_decode_auto ..]

end Simd.Base32
