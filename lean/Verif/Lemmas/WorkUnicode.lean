import Verif.Lemmas.Work
import Verif.Model.Unicode
import Verif.Model.Uuid
/-
The work of the functions of unicode-simd and uuid-simd.
-/
namespace Simd
open Vs

namespace Unicode

theorem cost_is_ascii_fallback_loop (e) (p : Ptr) (a) : Cost' (is_ascii_fallback_loop e p a) (2 * (e - p.off)) := by
  unfold is_ascii_fallback_loop; cost [cost_is_ascii_fallback_loop ..]
termination_by e - p.off
decreasing_by simp only [Ptr.add]; omega
theorem cost_is_ascii_fallback (p : Ptr) (n) : Cost' (is_ascii_fallback p n) (2 * n) := by
  unfold is_ascii_fallback; cost [cost_is_ascii_fallback_loop ..]
theorem cost_is_ascii_loop32 (s e) (p : Ptr) (y) : Cost' (is_ascii_loop32 s e p y) (34 * ((e - p.off + 31) / 32)) := by
  unfold is_ascii_loop32; cost [cost_is_ascii_loop32 ..]
termination_by e - p.off
decreasing_by simp only [Ptr.add]; omega
theorem cost_is_ascii_simd_v256 (p : Ptr) (s n) : Cost' (is_ascii_simd_v256 s p n) (2 * n) := by
  unfold is_ascii_simd_v256; cost [cost_is_ascii_fallback .., cost_is_ascii_loop32 ..]
theorem cost_check_tiny_loop (e) : ∀ k p a, Cost' (check_tiny_loop e k p a) (2 * k)
  | 0, p, a => by unfold check_tiny_loop; cost []
  | k + 1, p, a => by have ih := cost_check_tiny_loop e k; unfold check_tiny_loop; cost [ih ..]
theorem cost_check_tiny (p : Ptr) (n) : Cost' (check_tiny p n) 11 := by
  unfold check_tiny check_tiny_rest; cost [cost_check_tiny_loop ..]
theorem cost_check_short (p : Ptr) (n) : Cost' (check_short p n) 18 := by
  unfold check_short; cost []
theorem cost_or_load (p : Ptr) (c k x) : Cost' (or_load c p k x) 17 := by
  unfold or_load; cost []
theorem cost_check_medium (p : Ptr) (n) : Cost' (check_medium p n) 68 := by
  unfold check_medium; cost [cost_or_load ..]
theorem cost_check_long_loop (e) (p : Ptr) : Cost' (check_long_loop e p) (65 * ((e - p.off + 63) / 64)) := by
  unfold check_long_loop; cost [cost_check_long_loop ..]
termination_by e - p.off
decreasing_by simp only [Ptr.add]; omega
theorem cost_check_long (p : Ptr) (n) : Cost' (check_long p n) (2 * n + 68) := by
  unfold check_long; cost [cost_check_tiny .., cost_check_short .., cost_check_medium .., cost_check_long_loop ..]
theorem cost_is_ascii_sse2 (p : Ptr) (n) : Cost' (is_ascii_sse2 p n) (2 * n + 68) := by
  unfold is_ascii_sse2
  cost [cost_check_tiny .., cost_check_short .., cost_check_medium .., cost_check_long ..]
theorem cost_is_ascii (d : Slice) (x64 i) : Cost' (is_ascii x64 i d) (2 * d.len + 68) := by
  unfold is_ascii is_ascii_auto is_ascii_simd
  cost [cost_is_ascii_fallback .., cost_is_ascii_simd_v256 .., cost_is_ascii_sse2 ..]
theorem cost_from_ascii (d : Slice) (x64 i) : Cost' (from_ascii x64 i d) (2 * d.len + 68) := by
  unfold from_ascii; cost [cost_is_ascii ..]
theorem cost_is_utf32le_fallback_loop (e) (p : Ptr) (a) : Cost' (is_utf32le_fallback_loop e p a) (5 * ((e - p.off + 3) / 4)) := by
  unfold is_utf32le_fallback_loop; cost [cost_is_utf32le_fallback_loop ..]
termination_by e - p.off
decreasing_by simp only [Ptr.add]; omega
theorem cost_is_utf32le_fallback (p : Ptr) (n) : Cost' (is_utf32le_fallback p n) (5 * n) := by
  unfold is_utf32le_fallback; cost [cost_is_utf32le_fallback_loop ..]
theorem cost_is_utf32le_loop8 (s e) (p : Ptr) (y) : Cost' (is_utf32le_loop8 s e p y) (34 * ((e - p.off + 31) / 32)) := by
  unfold is_utf32le_loop8; cost [cost_is_utf32le_loop8 ..]
termination_by e - p.off
decreasing_by simp only [Ptr.add]; omega
theorem cost_is_utf32le (d : Slice) (i) : Cost' (is_utf32le i d) (5 * d.len) := by
  unfold is_utf32le is_utf32le_auto is_utf32le_simd; cost [cost_is_utf32le_fallback .., cost_is_utf32le_loop8 ..]
theorem cost_bswap_fallback_loop (t : Elem) (e) (p q : Ptr) :
    Cost' (bswap_fallback_loop t e p q) ((2 * t.size + 2) * ((e - p.off + (t.size - 1)) / t.size)) := by
  unfold bswap_fallback_loop
  cases t <;> dsimp only [Elem.size, swap_single] <;> cost [cost_bswap_fallback_loop ..]
  all_goals (simp only [Elem.size, Ptr.add, List.length_reverse]; omega)
termination_by e - p.off
decreasing_by all_goals (simp only [Ptr.add]; omega)
theorem cost_bswap_fallback (p q : Ptr) (t : Elem) (n) : Cost' (bswap_fallback t p n q) ((2 * t.size + 2) * n) := by
  unfold bswap_fallback
  cases t <;> dsimp only [Elem.size] <;> cost [cost_bswap_fallback_loop ..]
  all_goals (simp only [Elem.size]; omega)
theorem cost_bswap_simd_loop (t s e) (p q : Ptr) : Cost' (bswap_simd_loop t s e p q) (68 * ((e - p.off + 31) / 32)) := by
  unfold bswap_simd_loop
  cases t <;> dsimp only [Elem.size, Elem.lanes] <;> cost [cost_bswap_simd_loop ..]
termination_by e - p.off
decreasing_by all_goals (simp only [Ptr.add]; omega)
theorem cost_swap_auto (p q : Ptr) (t : Elem) (i n) : Cost' (swap_auto t i p n q) ((2 * t.size + 2) * n) := by
  unfold swap_auto bswap_simd
  cases t <;> dsimp only [Elem.size, Elem.lanes] <;> cost [cost_bswap_fallback .., cost_bswap_simd_loop ..]
  all_goals (simp only [Elem.size]; omega)
theorem cost_swap_endianness (src dst : Slice) (t : Elem) (i) : Cost' (swap_endianness t i src dst) ((2 * t.size + 2) * src.len) := by
  unfold swap_endianness; cost [cost_swap_auto ..]
theorem cost_swap_endianness_inplace (d : Slice) (t : Elem) (i) : Cost' (swap_endianness_inplace t i d) ((2 * t.size + 2) * d.len) := by
  unfold swap_endianness_inplace; cost [cost_swap_auto ..]

end Unicode

namespace Uuid

theorem cost_parse_simple_auto (i) (p q : Ptr) : Cost' (parse_simple_auto i p q) 96 := by
  unfold parse_simple_auto parse_simple_fallback parse_simple_simd parse_simple_simd_sse2
  cost [Cost.foldFrom (c := 6) ?_ 16 0 _]
  all_goals (simp only [List.length_append, Vec.toList_length]; omega)
theorem cost_check_hyphens (p : Ptr) : Cost' (check_hyphens p) 8 := by
  unfold check_hyphens; cost []
theorem cost_parse_hyphenated_loop (p q : Ptr) : ∀ l j f, Cost' (parse_hyphenated_loop p q l j f) (12 * l.length)
  | [], j, f => by unfold parse_hyphenated_loop; cost []
  | i :: l, j, f => by have ih := cost_parse_hyphenated_loop p q l; unfold parse_hyphenated_loop; cost [ih ..]
theorem cost_parse_hyphenated_auto (i) (p q : Ptr) : Cost' (parse_hyphenated_auto i p q) 104 := by
  have h : POSITIONS.length = 8 := rfl
  unfold parse_hyphenated_auto parse_hyphenated_fallback parse_hyphenated_simd
  cost [cost_check_hyphens .., cost_parse_hyphenated_loop ..]
theorem cost_format_simple_auto (i) (p q : Ptr) (c) : Cost' (format_simple_auto i p q c) 96 := by
  unfold format_simple_auto format_simple_fallback format_simple_simd format_simple_simd_sse2
  cost [Cost.forFrom (c := 6) ?_ 16 0]
theorem cost_format_group (t) (p q : Ptr) (i j e) : Cost' (format_group t p q i j e) (6 * ((e - j + 1) / 2)) := by
  unfold format_group; cost [cost_format_group ..]
termination_by e - j
theorem cost_format_groups (t) (p q : Ptr) : ∀ l g i, Cost' (format_groups t p q l g i) ((l.map fun x => 6 * ((x.2 - x.1 + 1) / 2) + 2).sum)
  | [], g, i => by unfold format_groups; cost []
  | ⟨a, b⟩ :: l, g, i => by
    have ih := cost_format_groups t p q l
    simp only [List.map_cons, List.sum_cons]
    unfold format_groups; cost [cost_format_group .., ih ..]
theorem cost_format_hyphenated_auto (i) (p q : Ptr) (c) : Cost' (format_hyphenated_auto i p q c) 106 := by
  cases i with
  | none => exact cost_format_groups _ p q GROUPS 0 0
  | some s =>
    have h2 : ∀ a x, i16x8_get_lane7 s a = some x → x.length = 2 := by
      intro a x; cases s <;> intro h <;> cases h <;> rfl
    have h4 : ∀ a x, i32x4_get_lane3 s a = some x → x.length = 4 := by
      intro a x; cases s <;> intro h <;> cases h <;> rfl
    show Cost' (format_hyphenated_simd s p q c) 106
    unfold format_hyphenated_simd
    cost []
    all_goals (have e2 := h2 _ _ (by assumption); have e4 := h4 _ _ (by assumption); omega)
theorem cost_hyphenated_start (src : Slice) : Cost' (hyphenated_start src) 10 := by
  unfold hyphenated_start; cost []
theorem cost_parse (si hi) (src : Slice) (q) : Cost' (parse si hi src q) 114 := by
  unfold parse; cost [cost_hyphenated_start .., cost_parse_simple_auto .., cost_parse_hyphenated_auto ..]
theorem cost_parse_simple (i) (src : Slice) (q) : Cost' (parse_simple i src q) 96 := by
  unfold parse_simple; cost [cost_parse_simple_auto ..]
theorem cost_parse_hyphenated (i) (src : Slice) (q) : Cost' (parse_hyphenated i src q) 104 := by
  unfold parse_hyphenated; cost [cost_parse_hyphenated_auto ..]
theorem cost_format_simple (i) (p q : Ptr) (c) : Cost (fun r _ => r.len = 32) (format_simple i p q c) 96 := by
  unfold format_simple; cost [cost_format_simple_auto ..]
theorem cost_format_hyphenated (i) (p q : Ptr) (c) : Cost (fun r _ => r.len = 36) (format_hyphenated i p q c) 106 := by
  unfold format_hyphenated; cost [cost_format_hyphenated_auto ..]
theorem cost_parse_uuid (src : Slice) {f : Slice → Ptr → Prog Slice} {B : Nat} (h : ∀ q, Cost' (f src q) B) : Cost' (parse_uuid src f) (B + 17) := by
  intro b
  cost [h ..]
theorem cost_format_uuid (N) (src : Ptr) {f : Ptr → Ptr → AsciiCase → Prog Slice} {B k : Nat} (c)
    (h : ∀ q, Cost (fun r _ => r.len = k) (f src q c) B) : Cost' (format_uuid N src f c) (B + k + 1) := by
  intro b
  cost [h ..]

end Uuid
end Simd
