import Verif.Lemmas.Footprint
import Verif.Model.Forgiving
import Verif.Model.Base32
/-
Which allocations the functions of base64-simd and base32-simd load from and store to.
-/
namespace Simd
open Vs
variable {L W : Nat → Prop}

namespace Base64

theorem uses_encode_bits24 {p q : Ptr} (hp : L p.buf) (hq : W q.buf) (cs) : Uses' L W (encode_bits24 p q cs) := by
  unfold encode_bits24; uses [] []
theorem uses_encode_bits48 {p q : Ptr} (hp : L p.buf) (hq : W q.buf) (cs) : Uses' L W (encode_bits48 p q cs) := by
  unfold encode_bits48; uses [] []
theorem uses_encode_extra {p q : Ptr} (hp : L p.buf) (hq : W q.buf) (e cs pad) : Uses' L W (encode_extra e p q cs pad) := by
  unfold encode_extra; uses [] []
theorem uses_encode_inner (cs) : ∀ k p q, L p.buf → W q.buf → Uses L W (fun r : Ptr × Ptr => L r.1.buf ∧ W r.2.buf) (encode_inner cs k p q)
  | 0, p, q, hp, hq => by unfold encode_inner; uses [] []
  | k + 1, p, q, hp, hq => by have ih := uses_encode_inner cs k; unfold encode_inner; uses [uses_encode_bits48, ih] []
theorem uses_encode_loop24 (cs) (p q : Ptr) (n : Nat) (hp : L p.buf) (hq : W q.buf) :
    Uses L W (fun r : Ptr × Ptr × Nat => L r.1.buf ∧ W r.2.1.buf) (encode_loop24 cs p q n) := by
  unfold encode_loop24; uses [uses_encode_loop24] [uses_encode_inner]
termination_by n
theorem uses_encode_loop6 (cs) (p q : Ptr) (n : Nat) (hp : L p.buf) (hq : W q.buf) :
    Uses L W (fun r : Ptr × Ptr × Nat => L r.1.buf ∧ W r.2.1.buf) (encode_loop6 cs p q n) := by
  unfold encode_loop6; uses [uses_encode_bits48, uses_encode_loop6] []
termination_by n
theorem uses_encode_loop3 (cs e) (p q : Ptr) (hp : L p.buf) (hq : W q.buf) :
    Uses L W (fun r : Ptr × Ptr => L r.1.buf ∧ W r.2.buf) (encode_loop3 cs e p q) := by
  unfold encode_loop3; uses [uses_encode_bits24, uses_encode_loop3] []
termination_by e - p.off
decreasing_by simp only [Ptr.add]; omega
theorem uses_encode_fallback {p q : Ptr} (hp : L p.buf) (hq : W q.buf) (n config) : Uses' L W (encode_fallback p n q config) := by
  unfold encode_fallback; uses [uses_encode_extra] [uses_encode_loop24, uses_encode_loop6, uses_encode_loop3]
theorem uses_encode_head (cs) : ∀ k p q n, L p.buf → W q.buf → Uses L W (fun r : Ptr × Ptr × Nat => L r.1.buf ∧ W r.2.1.buf) (encode_head cs k p q n)
  | 0, p, q, n, hp, hq => by unfold encode_head; uses [] []
  | k + 1, p, q, n, hp, hq => by have ih := uses_encode_head cs k; unfold encode_head; uses [uses_encode_bits24, ih] []
theorem uses_encode_loop_x2 (s lut) (p q : Ptr) (n : Nat) (hp : L p.buf) (hq : W q.buf) :
    Uses L W (fun r : Ptr × Ptr × Nat => L r.1.buf ∧ W r.2.1.buf) (encode_loop_x2 s lut p q n) := by
  unfold encode_loop_x2; uses [uses_encode_loop_x2] [Uses.psubL]
termination_by n
theorem uses_encode_simd1 {p q : Ptr} (hp : L p.buf) (hq : W q.buf) (s n k) : Uses L W (fun r : Ptr × Ptr × Nat => L r.1.buf ∧ W r.2.1.buf) (encode_simd1 s p q n k) := by
  unfold encode_simd1; uses [uses_encode_loop_x2] [uses_encode_head]
theorem uses_encode_simd2 {p q : Ptr} (hp : L p.buf) (hq : W q.buf) (s n k) : Uses L W (fun r : Ptr × Ptr × Nat => L r.1.buf ∧ W r.2.1.buf) (encode_simd2 s p q n k) := by
  unfold encode_simd2; uses [] []
theorem uses_encode_auto {p q : Ptr} (hp : L p.buf) (hq : W q.buf) (i n config) : Uses' L W (encode_auto i p n q config) := by
  unfold encode_auto encode_simd; uses [uses_encode_fallback] [uses_encode_simd1, uses_encode_simd2]
theorem uses_count_pad {d : Slice} (hp : L d.ptr.buf) : Uses' L W (count_pad d) := by
  unfold count_pad; uses [] []
theorem uses_data_length {d : Slice} (hp : L d.ptr.buf) (config) : Uses' L W (data_length d config) := by
  unfold data_length; uses [uses_count_pad] []
theorem uses_decoded_length {d : Slice} (hp : L d.ptr.buf) (config) : Uses' L W (decoded_length d config) := by
  unfold decoded_length; uses [uses_data_length] []
theorem uses_decode_ascii8 {p : Ptr} (hp : L p.buf) (q : Option Ptr) (hq : ∀ r, q = some r → W r.buf) (t) : Uses' L W (decode_ascii8 p q t) := by
  cases q with
  | none => unfold decode_ascii8; uses [] []
  | some q => have hq := hq q rfl; unfold decode_ascii8; uses [] []
theorem uses_decode_ascii4 {p : Ptr} (hp : L p.buf) (q : Option Ptr) (hq : ∀ r, q = some r → W r.buf) (t) : Uses' L W (decode_ascii4 p q t) := by
  cases q with
  | none => unfold decode_ascii4; uses [] []
  | some q => have hq := hq q rfl; unfold decode_ascii4; uses [] []
theorem uses_decode_extra {p : Ptr} (hp : L p.buf) (q : Option Ptr) (hq : ∀ r, q = some r → W r.buf) (e t f) : Uses' L W (decode_extra e p q t f) := by
  cases q with
  | none => unfold decode_extra; uses [] []
  | some q => have hq := hq q rfl; unfold decode_extra; uses [] []
theorem some_buf {q : Ptr} (hq : W q.buf) : ∀ r, some q = some r → W r.buf := by rintro _ ⟨⟩; exact hq
theorem none_buf : ∀ r, (none : Option Ptr) = some r → W r.buf := by rintro _ ⟨⟩
theorem uses_ascii8 {p q : Ptr} (hp : L p.buf) (hq : W q.buf) (t) : Uses' L W (decode_ascii8 p (some q) t) := uses_decode_ascii8 hp _ (some_buf hq) t
theorem uses_ascii4 {p q : Ptr} (hp : L p.buf) (hq : W q.buf) (t) : Uses' L W (decode_ascii4 p (some q) t) := uses_decode_ascii4 hp _ (some_buf hq) t
theorem uses_dextra {p q : Ptr} (hp : L p.buf) (hq : W q.buf) (e t f) : Uses' L W (decode_extra e p (some q) t f) := uses_decode_extra hp _ (some_buf hq) e t f
theorem uses_check8 {p : Ptr} (hp : L p.buf) (t) : Uses' L W (decode_ascii8 p none t) := uses_decode_ascii8 hp _ none_buf t
theorem uses_check4 {p : Ptr} (hp : L p.buf) (t) : Uses' L W (decode_ascii4 p none t) := uses_decode_ascii4 hp _ none_buf t
theorem uses_cextra {p : Ptr} (hp : L p.buf) (e t f) : Uses' L W (decode_extra e p none t f) := uses_decode_extra hp _ none_buf e t f
theorem uses_decode_loop8 (t) (p q : Ptr) (n : Nat) (hp : L p.buf) (hq : W q.buf) :
    Uses L W (fun r : Ptr × Ptr × Nat => L r.1.buf ∧ W r.2.1.buf) (decode_loop8 t p q n) := by
  unfold decode_loop8; uses [uses_ascii8, uses_decode_loop8] []
termination_by n
theorem uses_decode_loop4 (t e) (p q : Ptr) (hp : L p.buf) (hq : W q.buf) :
    Uses L W (fun r : Ptr × Ptr => L r.1.buf ∧ W r.2.buf) (decode_loop4 t e p q) := by
  unfold decode_loop4; uses [uses_ascii4, uses_decode_loop4] []
termination_by e - p.off
decreasing_by simp only [Ptr.add]; omega
theorem uses_decode_fallback {p q : Ptr} (hp : L p.buf) (hq : W q.buf) (n config) : Uses' L W (decode_fallback p q n config) := by
  unfold decode_fallback; uses [uses_dextra] [uses_decode_loop8, uses_decode_loop4]
theorem uses_decode_loop32 (s c d) (p q : Ptr) (n : Nat) (hp : L p.buf) (hq : W q.buf) :
    Uses L W (fun r : Ptr × Ptr × Nat => L r.1.buf ∧ W r.2.1.buf) (decode_loop32 s c d p q n) := by
  unfold decode_loop32; uses [uses_decode_loop32] []
termination_by n
theorem uses_decode_auto {p q : Ptr} (hp : L p.buf) (hq : W q.buf) (i n config) : Uses' L W (decode_auto i p q n config) := by
  unfold decode_auto decode_simd; uses [uses_decode_fallback] [uses_decode_loop32]
theorem uses_check_loop8 (t) (p : Ptr) (n : Nat) (hp : L p.buf) :
    Uses L W (fun r : Ptr × Nat => L r.1.buf) (check_loop8 t p n) := by
  unfold check_loop8; uses [uses_check8, uses_check_loop8] []
termination_by n
theorem uses_check_loop4 (t) (p : Ptr) (n : Nat) (hp : L p.buf) :
    Uses L W (fun r : Ptr × Nat => L r.1.buf) (check_loop4 t p n) := by
  unfold check_loop4; uses [uses_check4, uses_check_loop4] []
termination_by n
theorem uses_check_fallback {p : Ptr} (hp : L p.buf) (n config) : Uses' L W (check_fallback p n config) := by
  unfold check_fallback; uses [uses_cextra] [uses_check_loop8, uses_check_loop4]
theorem uses_check_loop32 (s c) (p : Ptr) (n : Nat) (hp : L p.buf) :
    Uses L W (fun r : Ptr × Nat => L r.1.buf) (check_loop32 s c p n) := by
  unfold check_loop32; uses [uses_check_loop32] []
termination_by n
theorem uses_check_auto {p : Ptr} (hp : L p.buf) (i n config) : Uses' L W (check_auto i p n config) := by
  unfold check_auto check_simd; uses [uses_check_fallback] [uses_check_loop32]
theorem uses_check {d : Slice} (hp : L d.ptr.buf) (i config) : Uses' L W (check i config d) := by
  unfold check; uses [uses_decoded_length, uses_check_auto] []
theorem uses_encode {src dst : Slice} (hp : L src.ptr.buf) (hq : W dst.ptr.buf) (P i config) : Uses' L W (encode P i config src dst) := by
  unfold encode; uses [uses_encode_auto] []
theorem uses_decode {src dst : Slice} (hp : L src.ptr.buf) (hq : W dst.ptr.buf) (i config) : Uses' L W (decode i config src dst) := by
  unfold decode; uses [uses_decoded_length, uses_decode_auto] []
theorem uses_decode_inplace {d : Slice} (hp : L d.ptr.buf) (hq : W d.ptr.buf) (i config) : Uses' L W (decode_inplace i config d) := by
  unfold decode_inplace; uses [uses_decoded_length, uses_decode_auto] []
theorem uses_find_short_loop (e) (p : Ptr) (hp : L p.buf) :
    Uses L W (fun r : Ptr => L r.buf) (find_short_loop e p) := by
  unfold find_short_loop lookup_ascii_whitespace; uses [uses_find_short_loop] []
termination_by e - p.off
decreasing_by simp only [Ptr.add]; omega
theorem uses_find_non_ascii_whitespace_short {p : Ptr} (hp : L p.buf) (n) : Uses' L W (find_non_ascii_whitespace_short p n) := by
  unfold find_non_ascii_whitespace_short; uses [] [uses_find_short_loop]
theorem uses_find_loop32 (s e) (p : Ptr) (hp : L p.buf) :
    Uses L W (fun r : Ptr => L r.buf) (find_loop32 s e p) := by
  unfold find_loop32; uses [uses_find_loop32] []
termination_by e - p.off
decreasing_by simp only [Ptr.add]; omega
theorem uses_find_loop16 (s e) (p : Ptr) (hp : L p.buf) :
    Uses L W (fun r : Ptr => L r.buf) (find_loop16 s e p) := by
  unfold find_loop16; uses [uses_find_loop16] []
termination_by e - p.off
decreasing_by simp only [Ptr.add]; omega
theorem uses_find_simd_part {p : Ptr} (hp : L p.buf) (s n) : Uses L W (fun r : Ptr => L r.buf) (find_simd_part s p n) := by
  unfold find_simd_part; uses [uses_find_loop16] [uses_find_loop32]
theorem uses_find_non_ascii_whitespace {d : Slice} (hp : L d.ptr.buf) (i) : Uses' L W (find_non_ascii_whitespace i d) := by
  unfold find_non_ascii_whitespace find_non_ascii_whitespace_simd; uses [uses_find_non_ascii_whitespace_short] [uses_find_simd_part]
theorem uses_remove_loop (e) (p q : Ptr) (hp : L p.buf) (hq : W q.buf) :
    Uses L W (fun r : Ptr => W r.buf) (remove_loop e p q) := by
  unfold remove_loop lookup_ascii_whitespace; uses [uses_remove_loop] []
termination_by e - p.off
decreasing_by all_goals (simp only [Ptr.add]; omega)
theorem uses_remove_ascii_whitespace_fallback {p q : Ptr} (hp : L p.buf) (hq : W q.buf) (n) : Uses' L W (remove_ascii_whitespace_fallback p n q) := by
  unfold remove_ascii_whitespace_fallback; uses [] [uses_remove_loop]
theorem uses_remove_inplace {d : Slice} (hp : L d.ptr.buf) (hq : W d.ptr.buf) (fi) :
    Uses L W (fun r : Slice => L r.ptr.buf ∧ W r.ptr.buf) (remove_ascii_whitespace_inplace fi d) := by
  unfold remove_ascii_whitespace_inplace; uses [uses_find_non_ascii_whitespace, uses_remove_ascii_whitespace_fallback] []
theorem uses_forgiving_inplace {d : Slice} (hp : L d.ptr.buf) (hq : W d.ptr.buf) (fi di) : Uses' L W (forgiving_decode_inplace fi di d) := by
  unfold forgiving_decode_inplace; uses [uses_decode_inplace] [uses_remove_inplace]
theorem uses_forgiving {src dst : Slice} (hp : L src.ptr.buf) (hp' : L dst.ptr.buf) (hq : W dst.ptr.buf) (fi di) :
    Uses' L W (forgiving_decode fi di src dst) := by
  unfold forgiving_decode copy_and_decode copy_nonoverlapping
  uses [uses_find_non_ascii_whitespace, uses_decode, uses_remove_ascii_whitespace_fallback, uses_decode_inplace] []

end Base64

namespace Base32

theorem uses_encode_bits {q : Ptr} (hq : W q.buf) (N cs x) : Uses' L W (encode_bits N q cs x) := by
  unfold encode_bits; uses [] []
theorem uses_read_be_bytes {p : Ptr} (hp : L p.buf) (w N) : Uses' L W (read_be_bytes w N p) := by
  unfold read_be_bytes; uses [] []
theorem uses_write_pad {q : Ptr} (hq : W q.buf) (i b) : Uses' L W (write_pad q i b) := by
  unfold write_pad; uses [] []
theorem uses_encode_extra {p q : Ptr} (hp : L p.buf) (hq : W q.buf) (w e cs pad) : Uses' L W (encode_extra w p e q cs pad) := by
  unfold encode_extra; uses [uses_read_be_bytes, uses_encode_bits, uses_write_pad] []
theorem uses_encode_loop5 (w cs e) (p q : Ptr) (hp : L p.buf) (hq : W q.buf) :
    Uses L W (fun r : Ptr × Ptr => L r.1.buf ∧ W r.2.buf) (encode_loop5 w cs e p q) := by
  unfold encode_loop5; uses [uses_read_be_bytes, uses_encode_bits, uses_encode_loop5] []
termination_by e - p.off
decreasing_by simp only [Ptr.add]; omega
theorem uses_encode_fallback {p q : Ptr} (hp : L p.buf) (hq : W q.buf) (w n k pad) : Uses' L W (encode_fallback w p n q k pad) := by
  unfold encode_fallback; uses [uses_encode_extra] [uses_encode_loop5]
theorem uses_encode_head (w cs) : ∀ k p q, L p.buf → W q.buf → Uses L W (fun r : Ptr × Ptr => L r.1.buf ∧ W r.2.buf) (encode_head w cs k p q)
  | 0, p, q, hp, hq => by unfold encode_head; uses [] []
  | k + 1, p, q, hp, hq => by have ih := uses_encode_head w cs k; unfold encode_head; uses [uses_read_be_bytes, uses_encode_bits, ih] []
theorem uses_encode_loop20 (s lut) (p q : Ptr) (n : Nat) (hp : L p.buf) (hq : W q.buf) :
    Uses L W (fun r : Ptr × Ptr × Nat => L r.1.buf ∧ W r.2.1.buf) (encode_loop20 s lut p q n) := by
  unfold encode_loop20; uses [uses_encode_loop20] [Uses.psubL]
termination_by n
theorem uses_encode_simd1 {p q : Ptr} (hp : L p.buf) (hq : W q.buf) (w s n k) : Uses L W (fun r : Ptr × Ptr × Nat => L r.1.buf ∧ W r.2.1.buf) (encode_simd1 w s p q n k) := by
  unfold encode_simd1; uses [uses_encode_loop20] [uses_encode_head]
theorem uses_encode_auto {p q : Ptr} (hp : L p.buf) (hq : W q.buf) (w i n k pad) : Uses' L W (encode_auto w i p n q k pad) := by
  unfold encode_auto encode_simd; uses [uses_encode_fallback] [uses_encode_simd1]
theorem uses_data_length {d : Slice} (hp : L d.ptr.buf) (b) : Uses' L W (data_length d b) := by
  unfold data_length; uses [] []
theorem uses_decoded_length {d : Slice} (hp : L d.ptr.buf) (b) : Uses' L W (decoded_length d b) := by
  unfold decoded_length; uses [uses_data_length] []
theorem uses_decode_bits {p : Ptr} (hp : L p.buf) (N t) : Uses' L W (decode_bits N p t) := by
  unfold decode_bits; uses [] []
theorem uses_write_be_bytes {q : Ptr} (hq : W q.buf) (w N x) : Uses' L W (write_be_bytes w N q x) := by
  unfold write_be_bytes; uses [] []
theorem uses_dextra {p q : Ptr} (hp : L p.buf) (hq : W q.buf) (w e t) : Uses' L W (decode_extra w p e (some q) t) := by
  unfold decode_extra write_opt; uses [uses_decode_bits, uses_write_be_bytes] []
theorem uses_cextra {p : Ptr} (hp : L p.buf) (w e t) : Uses' L W (decode_extra w p e none t) := by
  unfold decode_extra write_opt; uses [uses_decode_bits] []
theorem uses_decode_loop8 (w t e) (p q : Ptr) (hp : L p.buf) (hq : W q.buf) :
    Uses L W (fun r : Ptr × Ptr => L r.1.buf ∧ W r.2.buf) (decode_loop8 w t e p q) := by
  unfold decode_loop8; uses [uses_decode_bits, uses_write_be_bytes, uses_decode_loop8] []
termination_by e - p.off
decreasing_by simp only [Ptr.add]; omega
theorem uses_decode_fallback {p q : Ptr} (hp : L p.buf) (hq : W q.buf) (w n k) : Uses' L W (decode_fallback w p n q k) := by
  unfold decode_fallback; uses [uses_dextra] [uses_decode_loop8]
theorem uses_decode_loop32 (s c d) (p q : Ptr) (n : Nat) (hp : L p.buf) (hq : W q.buf) :
    Uses L W (fun r : Ptr × Ptr × Nat => L r.1.buf ∧ W r.2.1.buf) (decode_loop32 s c d p q n) := by
  unfold decode_loop32; uses [uses_decode_loop32] []
termination_by n
theorem uses_decode_auto {p q : Ptr} (hp : L p.buf) (hq : W q.buf) (w i n k) : Uses' L W (decode_auto w i p n q k) := by
  unfold decode_auto decode_simd; uses [uses_decode_fallback] [uses_decode_loop32]
theorem uses_check_loop8 (t e) (p : Ptr) (hp : L p.buf) :
    Uses L W (fun r : Ptr => L r.buf) (check_loop8 t e p) := by
  unfold check_loop8; uses [uses_decode_bits, uses_check_loop8] []
termination_by e - p.off
decreasing_by simp only [Ptr.add]; omega
theorem uses_check_fallback {p : Ptr} (hp : L p.buf) (n k) : Uses' L W (check_fallback p n k) := by
  unfold check_fallback; uses [uses_cextra] [uses_check_loop8]
theorem uses_check_loop32 (s c e) (p : Ptr) (hp : L p.buf) :
    Uses L W (fun r : Ptr => L r.buf) (check_loop32 s c e p) := by
  unfold check_loop32; uses [uses_check_loop32] []
termination_by e - p.off
decreasing_by simp only [Ptr.add]; omega
theorem uses_check_auto {p : Ptr} (hp : L p.buf) (i n k) : Uses' L W (check_auto i p n k) := by
  unfold check_auto check_simd; uses [uses_check_fallback] [uses_check_loop32]
theorem uses_check {d : Slice} (hp : L d.ptr.buf) (i config) : Uses' L W (check i config d) := by
  unfold check; uses [uses_decoded_length, uses_check_auto] []
theorem uses_encode {src dst : Slice} (hp : L src.ptr.buf) (hq : W dst.ptr.buf) (P w i config) : Uses' L W (encode P w i config src dst) := by
  unfold encode; uses [uses_encode_auto] []
theorem uses_decode {src dst : Slice} (hp : L src.ptr.buf) (hq : W dst.ptr.buf) (w i config) : Uses' L W (decode w i config src dst) := by
  unfold decode; uses [uses_decoded_length, uses_decode_auto] []
theorem uses_decode_inplace {d : Slice} (hp : L d.ptr.buf) (hq : W d.ptr.buf) (w i config) : Uses' L W (decode_inplace w i config d) := by
  unfold decode_inplace; uses [uses_decoded_length, uses_decode_auto] []

end Base32
end Simd
