import Verif.Lemmas.Footprint
import Verif.Model.Unicode
/-
Which allocations the functions of unicode-simd load from and store to.
-/
namespace Simd.Unicode
open Vs
variable {L W : Nat → Prop}

theorem uses_is_ascii_fallback_loop (e) (p : Ptr) (a) (hp : L p.buf) : Uses' L W (is_ascii_fallback_loop e p a) := by
  unfold is_ascii_fallback_loop; uses [uses_is_ascii_fallback_loop] []
termination_by e - p.off
decreasing_by simp only [Ptr.add]; omega
theorem uses_is_ascii_fallback {p : Ptr} (hp : L p.buf) (n) : Uses' L W (is_ascii_fallback p n) := by
  unfold is_ascii_fallback; uses [uses_is_ascii_fallback_loop] []
theorem uses_is_ascii_loop32 (s e) (p : Ptr) (y) (hp : L p.buf) : Uses L W (fun r : Ptr × V256 => L r.1.buf) (is_ascii_loop32 s e p y) := by
  unfold is_ascii_loop32; uses [uses_is_ascii_loop32] []
termination_by e - p.off
decreasing_by simp only [Ptr.add]; omega
theorem uses_is_ascii_simd_v256 {p : Ptr} (hp : L p.buf) (s n) : Uses' L W (is_ascii_simd_v256 s p n) := by
  unfold is_ascii_simd_v256; uses [uses_is_ascii_fallback] [uses_is_ascii_loop32]
theorem uses_check_tiny_loop (e) : ∀ k p a, L p.buf → Uses' L W (check_tiny_loop e k p a)
  | 0, p, a, hp => by unfold check_tiny_loop; uses [] []
  | k + 1, p, a, hp => by have ih := uses_check_tiny_loop e k; unfold check_tiny_loop; uses [ih] []
theorem uses_check_tiny {p : Ptr} (hp : L p.buf) (n) : Uses' L W (check_tiny p n) := by
  unfold check_tiny check_tiny_rest; uses [uses_check_tiny_loop] []
theorem uses_check_short {p : Ptr} (hp : L p.buf) (n) : Uses' L W (check_short p n) := by
  unfold check_short; uses [] []
theorem uses_or_load {p : Ptr} (hp : L p.buf) (c k x) : Uses' L W (or_load c p k x) := by
  unfold or_load; uses [] []
theorem uses_check_medium {p : Ptr} (hp : L p.buf) (n) : Uses' L W (check_medium p n) := by
  unfold check_medium; uses [uses_or_load] []
theorem uses_check_long_loop (e) (p : Ptr) (hp : L p.buf) : Uses L W (fun r : Option Ptr => ∀ p, r = some p → L p.buf) (check_long_loop e p) := by
  unfold check_long_loop
  split
  · refine Uses.seq (Uses.loadBytes hp _) fun _ => ?_
    dsimp only
    split
    · exact Uses.ret (by rintro _ ⟨⟩)
    · uses [uses_check_long_loop] []
  · exact Uses.ret (by rintro _ ⟨⟩; exact hp)
termination_by e - p.off
decreasing_by simp only [Ptr.add]; omega
theorem uses_check_long {p : Ptr} (hp : L p.buf) (n) : Uses' L W (check_long p n) := by
  unfold check_long
  refine Uses.seq (Uses.padd _ _) fun _ => Uses.bind (uses_check_long_loop _ _ hp) fun r hr => ?_
  cases r with
  | none => uses [] []
  | some p => have hp := hr p rfl; uses [uses_check_tiny, uses_check_short, uses_check_medium] []
theorem uses_is_ascii {d : Slice} (hp : L d.ptr.buf) (x64 i) : Uses' L W (is_ascii x64 i d) := by
  unfold is_ascii is_ascii_auto is_ascii_simd is_ascii_sse2; uses [uses_is_ascii_fallback, uses_is_ascii_simd_v256, uses_check_tiny, uses_check_short, uses_check_medium, uses_check_long] []
theorem uses_from_ascii {d : Slice} (hp : L d.ptr.buf) (x64 i) : Uses' L W (from_ascii x64 i d) := by
  unfold from_ascii; uses [uses_is_ascii] []
theorem uses_is_utf32le_fallback_loop (e) (p : Ptr) (a) (hp : L p.buf) : Uses' L W (is_utf32le_fallback_loop e p a) := by
  unfold is_utf32le_fallback_loop; uses [uses_is_utf32le_fallback_loop] []
termination_by e - p.off
decreasing_by simp only [Ptr.add]; omega
theorem uses_is_utf32le_fallback {p : Ptr} (hp : L p.buf) (n) : Uses' L W (is_utf32le_fallback p n) := by
  unfold is_utf32le_fallback; uses [uses_is_utf32le_fallback_loop] []
theorem uses_is_utf32le_loop8 (s e) (p : Ptr) (y) (hp : L p.buf) : Uses L W (fun r : Ptr × V256 => L r.1.buf) (is_utf32le_loop8 s e p y) := by
  unfold is_utf32le_loop8; uses [uses_is_utf32le_loop8] []
termination_by e - p.off
decreasing_by simp only [Ptr.add]; omega
theorem uses_is_utf32le {d : Slice} (hp : L d.ptr.buf) (i) : Uses' L W (is_utf32le i d) := by
  unfold is_utf32le is_utf32le_auto is_utf32le_simd; uses [uses_is_utf32le_fallback] [uses_is_utf32le_loop8]
theorem uses_bswap_fallback_loop (t e) (p q : Ptr) (hp : L p.buf) (hq : W q.buf) : Uses' L W (bswap_fallback_loop t e p q) := by
  unfold bswap_fallback_loop; uses [uses_bswap_fallback_loop] []
termination_by e - p.off
decreasing_by cases t <;> simp only [Ptr.add, Elem.size] <;> omega
theorem uses_bswap_fallback {p q : Ptr} (hp : L p.buf) (hq : W q.buf) (t n) : Uses' L W (bswap_fallback t p n q) := by
  unfold bswap_fallback; uses [uses_bswap_fallback_loop] []
theorem uses_bswap_simd_loop (t s e) (p q : Ptr) (hp : L p.buf) (hq : W q.buf) :
    Uses L W (fun r : Ptr × Ptr => L r.1.buf ∧ W r.2.buf) (bswap_simd_loop t s e p q) := by
  unfold bswap_simd_loop; uses [uses_bswap_simd_loop] []
termination_by e - p.off
decreasing_by cases t <;> simp only [Ptr.add, Elem.size, Elem.lanes] <;> omega
theorem uses_swap_auto {p q : Ptr} (hp : L p.buf) (hq : W q.buf) (t i n) : Uses' L W (swap_auto t i p n q) := by
  unfold swap_auto bswap_simd; uses [uses_bswap_fallback] [uses_bswap_simd_loop]
theorem uses_swap_endianness {src dst : Slice} (hp : L src.ptr.buf) (hq : W dst.ptr.buf) (t i) : Uses' L W (swap_endianness t i src dst) := by
  unfold swap_endianness; uses [uses_swap_auto] []
theorem uses_swap_endianness_inplace {d : Slice} (hp : L d.ptr.buf) (hq : W d.ptr.buf) (t i) : Uses' L W (swap_endianness_inplace t i d) := by
  unfold swap_endianness_inplace; uses [uses_swap_auto] []

end Simd.Unicode
