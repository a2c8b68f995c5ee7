import Verif.Lemmas.Oblivious
import Verif.Model.Unicode
/-
The functions of unicode-simd make the same accesses whatever bytes they load, except `is_ascii_sse2`, which stops at the first word or block
with a byte that is not ASCII.
-/
namespace Simd.Unicode
open Vs

theorem obl_is_ascii_fallback_loop (e) (p : Ptr) (a b) : Obl' (is_ascii_fallback_loop e p a) (is_ascii_fallback_loop e p b) := by
  unfold is_ascii_fallback_loop; obl [obl_is_ascii_fallback_loop] []
termination_by e - p.off
decreasing_by simp only [Ptr.add]; omega
theorem obl_is_ascii_fallback (p : Ptr) (n) : Obl' (is_ascii_fallback p n) (is_ascii_fallback p n) := by
  unfold is_ascii_fallback; obl [obl_is_ascii_fallback_loop] []
theorem obl_is_ascii_loop32 (s e) (p : Ptr) (y z) :
    Obl (fun a b : Ptr × V256 => a.1 = b.1) (is_ascii_loop32 s e p y) (is_ascii_loop32 s e p z) := by
  unfold is_ascii_loop32
  split
  · obl [obl_is_ascii_loop32] []
  · exact Obl.ret rfl
termination_by e - p.off
decreasing_by simp only [Ptr.add]; omega
theorem obl_is_ascii_simd_v256 (p : Ptr) (s n) : Obl' (is_ascii_simd_v256 s p n) (is_ascii_simd_v256 s p n) := by
  unfold is_ascii_simd_v256
  refine Obl.seq (Obl.padd _ _ _ _) fun _ _ => Obl.seq (Obl.liftO _ _) fun _ _ => Obl.bind (obl_is_ascii_loop32 _ _ _ _ _) ?_
  rintro ⟨a, y⟩ ⟨b, z⟩ ⟨⟩
  obl [obl_is_ascii_fallback] []
theorem obl_is_ascii (d : Slice) (x64 i) (h : x64 = false ∨ ∀ s, i = some s → s.is .SSE2 = false) : Obl' (is_ascii x64 i d) (is_ascii x64 i d) := by
  unfold is_ascii is_ascii_auto is_ascii_simd
  cases i with
  | none => exact obl_is_ascii_fallback _ _
  | some s =>
    dsimp only
    rw [if_neg (by rcases h with rfl | h <;> simp [*])]
    exact obl_is_ascii_simd_v256 _ _ _
theorem obl_is_utf32le_fallback_loop (e) (p : Ptr) (a b) : Obl' (is_utf32le_fallback_loop e p a) (is_utf32le_fallback_loop e p b) := by
  unfold is_utf32le_fallback_loop; obl [obl_is_utf32le_fallback_loop] []
termination_by e - p.off
decreasing_by simp only [Ptr.add]; omega
theorem obl_is_utf32le_fallback (p : Ptr) (n) : Obl' (is_utf32le_fallback p n) (is_utf32le_fallback p n) := by
  unfold is_utf32le_fallback; obl [obl_is_utf32le_fallback_loop] []
theorem obl_is_utf32le_loop8 (s e) (p : Ptr) (y z) :
    Obl (fun a b : Ptr × V256 => a.1 = b.1) (is_utf32le_loop8 s e p y) (is_utf32le_loop8 s e p z) := by
  unfold is_utf32le_loop8
  split
  · obl [obl_is_utf32le_loop8] []
  · exact Obl.ret rfl
termination_by e - p.off
decreasing_by simp only [Ptr.add]; omega
theorem obl_is_utf32le_simd (p : Ptr) (s n) : Obl' (is_utf32le_simd s p n) (is_utf32le_simd s p n) := by
  unfold is_utf32le_simd
  refine Obl.seq (Obl.liftO _ _) fun _ _ => Obl.seq (Obl.padd _ _ _ _) fun _ _ => Obl.bind (obl_is_utf32le_loop8 _ _ _ _ _) ?_
  rintro ⟨a, y⟩ ⟨b, z⟩ ⟨⟩
  obl [obl_is_utf32le_fallback] []
theorem obl_is_utf32le (d : Slice) (i) : Obl' (is_utf32le i d) (is_utf32le i d) := by
  unfold is_utf32le is_utf32le_auto; obl [obl_is_utf32le_fallback, obl_is_utf32le_simd] []
theorem obl_bswap_fallback_loop (t e) (p q : Ptr) : Obl' (bswap_fallback_loop t e p q) (bswap_fallback_loop t e p q) := by
  unfold bswap_fallback_loop
  split
  · refine Obl.bind (Obl.loadLen _ _) fun _ _ h => Obl.seq (Obl.storeBytes (by simp [swap_single, h])) fun _ _ => ?_
    obl [obl_bswap_fallback_loop] []
  · obl [] []
termination_by e - p.off
decreasing_by cases t <;> simp only [Ptr.add, Elem.size] <;> omega
theorem obl_bswap_fallback (p q : Ptr) (t n) : Obl' (bswap_fallback t p n q) (bswap_fallback t p n q) := by
  unfold bswap_fallback; obl [obl_bswap_fallback_loop] []
theorem obl_bswap_simd_loop (t s e) (p q : Ptr) : Obl Eq (bswap_simd_loop t s e p q) (bswap_simd_loop t s e p q) := by
  unfold bswap_simd_loop; obl [obl_bswap_simd_loop] []
termination_by e - p.off
decreasing_by cases t <;> simp only [Ptr.add, Elem.size, Elem.lanes] <;> omega
theorem obl_swap_auto (p q : Ptr) (t i n) : Obl' (swap_auto t i p n q) (swap_auto t i p n q) := by
  unfold swap_auto bswap_simd; obl [obl_bswap_fallback] [obl_bswap_simd_loop]
theorem obl_swap_endianness (src dst : Slice) (t i) : Obl' (swap_endianness t i src dst) (swap_endianness t i src dst) := by
  unfold swap_endianness; obl [obl_swap_auto] []
theorem obl_swap_endianness_inplace (d : Slice) (t i) : Obl' (swap_endianness_inplace t i d) (swap_endianness_inplace t i d) := by
  unfold swap_endianness_inplace; obl [obl_swap_auto] []

end Simd.Unicode
