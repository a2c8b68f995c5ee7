import Verif.Lemmas.Utf32
/-
Every implementation of the byte swap reverses each group of `size` bytes.
-/
namespace Simd
namespace Unicode
open Vs IsaId Intrin

/-- Reverse a group of `n` bytes. -/
def revG (n : Nat) (f : Nat → Byte) : List Byte := (List.range n).map fun i => f (n - 1 - i)

/-- Reverse every group of `n` bytes. -/
def swapB (n : Nat) (xs : List Byte) : List Byte := blocks n (revG n) xs

theorem revG_length (n f) : (revG n f).length = n := by simp [revG]
theorem revG_loc (n) (f f' : Nat → Byte) (h : ∀ r, r < n → f r = f' r) : revG n f = revG n f' := by
  unfold revG
  apply List.map_congr_left
  intro i hi
  have := List.mem_range.1 hi
  exact h _ (by omega)

theorem size_pos (t : Elem) : 0 < t.size := by cases t <;> simp [Elem.size]
theorem size_lanes (t : Elem) : t.size * t.lanes = 32 := by cases t <;> simp [Elem.size, Elem.lanes]
theorem lanes_pos (t : Elem) : 0 < t.lanes := by cases t <;> simp [Elem.lanes]

/-- The swapped vector, lane by lane. -/
def revVec (n : Nat) (x : V256) : V256 := ⟨fun i => x.lane (i / n * n + (n - 1 - i % n))⟩

section
variable {s : Isa}

theorem shuf_idx (n : Nat) (L : List Byte) (hL : ∀ i, i < 32 → ((Vec.x2 (.ofList L)).lane i).toNat = i % 16 / n * n + (n - 1 - i % 16 % n))
    (hn : n = 2 ∨ n = 4 ∨ n = 8) (x : V256) :
    ∀ i, i < 32 → (shuffle_epi8 x (Vec.x2 (.ofList L))).lane i = (revVec n x).lane i := by
  intro i hi
  show (if ((Vec.x2 (.ofList L)).lane i).toNat < 128 then x.lane (i / 16 * 16 + ((Vec.x2 (.ofList L)).lane i).toNat % 16) else 0) = _
  rw [hL i hi]
  unfold revVec
  rcases hn with rfl | rfl | rfl
  · rw [if_pos (by omega)]; dsimp only; congr 1; omega
  · rw [if_pos (by omega)]; dsimp only; congr 1; omega
  · rw [if_pos (by omega)]; dsimp only; congr 1; omega

theorem shuf_join (x : V256) (L : List Byte) :
    ∀ i, i < 32 → (join (shuffle_epi8 x.lo (.ofList L)) (shuffle_epi8 x.hi (.ofList L))).lane i = (shuffle_epi8 x (Vec.x2 (.ofList L))).lane i := by
  intro i hi
  simp only [shuffle_epi8, Vec.x2, join_lane]
  split
  · simp only [lo_lane]
  · simp only [hi_lane]
    split
    · congr 1; omega
    · rfl

theorem rev_join16 (x : V256) : ∀ i, i < 32 → (join (rev16 x.lo) (rev16 x.hi)).lane i = (revVec 2 x).lane i := by
  intro i hi
  simp only [rev16, revVec, join_lane, lo_lane, hi_lane]
  split <;> congr 1; omega
theorem rev_join32 (x : V256) : ∀ i, i < 32 → (join (rev32 x.lo) (rev32 x.hi)).lane i = (revVec 4 x).lane i := by
  intro i hi
  simp only [rev32, revVec, join_lane, lo_lane, hi_lane]
  split <;> congr 1; omega
theorem rev_join64 (x : V256) : ∀ i, i < 32 → (join (rev64 x.lo) (rev64 x.hi)).lane i = (revVec 8 x).lane i := by
  intro i hi
  simp only [rev64, revVec, join_lane, lo_lane, hi_lane]
  split <;> congr 1; omega

theorem swap_simd_eq (hs : s ≠ .sse2 ∧ s ≠ .ssse3) (t : Elem) (x : V256) :
    ∃ y, swap_simd t s x = some y ∧ ∀ i, i < 32 → y.lane i = (revVec t.size x).lane i := by
  have key : ∀ (n : Nat) (L : List Byte) (op : V128 → Option V128) (rev : V128 → V128),
      (∀ x ∈ L, x.toNat < 16 ∨ 128 ≤ x.toNat) →
      (∀ i, i < 32 → ((Vec.x2 (.ofList L)).lane i).toNat = i % 16 / n * n + (n - 1 - i % 16 % n)) →
      (n = 2 ∨ n = 4 ∨ n = 8) →
      (∀ x : V256, ∀ i, i < 32 → (join (rev x.lo) (rev x.hi)).lane i = (revVec n x).lane i) →
      (op = fun a => if s.is SSE41 || s.is WASM128 then u8x16_swizzle s a (.ofList L) else if s.is NEON then some (rev a) else none) →
      ∃ y, (if s.is AVX2 then u8x16x2_swizzle s x (Vec.x2 (.ofList L)) else vop1 op x) = some y ∧ ∀ i, i < 32 → y.lane i = (revVec n x).lane i := by
    intro n L op rev hL hidx hn hrev hop
    split
    · exact ⟨_, swzx2 hs.1 x hL, shuf_idx n L hidx hn x⟩
    · subst hop
      by_cases h : (s.is SSE41 || s.is WASM128) = true
      · refine ⟨join (shuffle_epi8 x.lo (.ofList L)) (shuffle_epi8 x.hi (.ofList L)), ?_, ?_⟩
        · simp only [vop1, if_pos h, swz16 hs.1 _ hL]; rfl
        · intro i hi; rw [shuf_join x L i hi, shuf_idx n L hidx hn x i hi]
      · have hN : s.is NEON = true := by
          obtain ⟨h1, h2⟩ := hs
          cases s <;> simp [Isa.is] at h h1 h2 ⊢
        refine ⟨join (rev x.lo) (rev x.hi), ?_, hrev x⟩
        simp only [vop1, if_neg h, if_pos hN]; rfl
  cases t with
  | u16 => exact key 2 _ _ rev16 (by decide) (by decide) (.inl rfl) rev_join16 rfl
  | u32 => exact key 4 _ _ rev32 (by decide) (by decide) (.inr (.inl rfl)) rev_join32 rfl
  | u64 => exact key 8 _ _ rev64 (by decide) (by decide) (.inr (.inr rfl)) rev_join64 rfl

end

theorem revVec_toList {t : Elem} {xs : List Byte} (hl : xs.length = 32) {y : V256} (hy : ∀ i, i < 32 → y.lane i = (revVec t.size (.ofList xs)).lane i) :
    y.toList = swapB t.size xs := by
  have h1 := size_lanes t
  have h2 : 32 / t.size = t.lanes := by rw [← h1, Nat.mul_div_cancel_left _ (size_pos t)]
  refine eq_blocks (b := t.size) (fun f => revG_length _ f) (by rw [hl, h2, h1]; simp) ?_
  intro i hi
  simp only [Vec.toList_length] at hi
  rw [Vec.toList_getElem, hy i hi]
  have hp := size_pos t
  have hm := Nat.mod_lt i hp
  unfold revG
  rw [List.getElem?_map, List.getElem?_range hm]
  simp only [Option.map_some, revVec, Vec.ofList_lane]
  rw [Nat.mul_comm]

theorem swapB_length (n : Nat) (hn : 0 < n) {k} {xs : List Byte} (h : xs.length = n * k) : (swapB n xs).length = n * k := by
  unfold swapB
  rw [blocks_length (fun f => revG_length n f), h, Nat.mul_div_cancel_left _ hn]

theorem swapB_one {n : Nat} (hn : 0 < n) {xs : List Byte} (h : xs.length = n) : swapB n xs = xs.reverse := by
  unfold swapB
  rw [blocks_one hn h]
  apply List.ext_getElem
  · simp [revG, h]
  · intro i h1 h2
    simp only [revG, List.length_map, List.length_range] at h1
    simp only [revG, List.getElem_map, List.getElem_range, List.getElem_reverse]
    rw [List.getD_eq_getElem?_getD, List.getElem?_eq_getElem (by omega)]
    simp only [Option.getD_some, h]

theorem swapB_append {n : Nat} (hn : 0 < n) {k} {xs : List Byte} (ys) (h : xs.length = n * k) : swapB n (xs ++ ys) = swapB n xs ++ swapB n ys :=
  blocks_append hn h (revG_loc n)

/-- The byte swap as a total specification for the loop theorems. -/
def swapS (t : Elem) (xs : List Byte) : Option (List Byte) := some (swapB t.size xs)

theorem swapS_nil (t) : swapS t [] = some [] := by simp [swapS, swapB]
theorem swapS_append (t : Elem) {k} {xs : List Byte} (ys) (h : xs.length = t.size * k) :
    swapS t (xs ++ ys) = (swapS t xs).bind fun u => (swapS t ys).map (u ++ ·) := by
  simp [swapS, swapB_append (size_pos t) ys h]

theorem _root_.Simd.Behind.safe {p q : Ptr} (n : Nat) {k : Nat} (h : Behind p q (n * k)) : Safe p q n n k := by
  unfold Behind at h
  unfold Safe
  omega

theorem bswap_fallback_does (t : Elem) {k m p q xs} (hl : xs.length = t.size * k) (hs : HasBytes m p xs) (hw : CanWrite m q (t.size * k))
    (hd : Behind p q (t.size * k)) : Does (bswap_fallback t p k q) () (swapS t) xs q (t.size * k) m := by
  have hb := hs.bound
  have hloop := loop_specS (F := bswap_fallback_loop t) (ret := fun _ _ => ()) (a := t.size) (b := t.size) (size_pos t)
    (by intro e p q h; rw [bswap_fallback_loop, if_neg h]) (swapS_nil t)
    (by intro xs ys h; exact swapS_append t (k := 1) ys (by omega))
    (by
      intro e m p q xs Q E hp hl hx hw hd hgo _
      have hb := hx.bound
      unfold CanWrite at hw
      rw [bswap_fallback_loop, if_pos hp]
      simp only [wp_bind, wp_loadBytes_iff hx hl, wp_storeBytes, wp_padd, Mem.write_size, swap_single, List.length_reverse, hl]
      refine ⟨by omega, by omega, by omega, ?_⟩
      rw [← swapB_one (size_pos t) hl]
      exact hgo _ rfl (by rw [swapB_length t.size (size_pos t) (k := 1) (by omega)]; omega))
  unfold bswap_fallback
  refine Does.padd (by omega) ?_
  exact hloop k m p q xs hl hs hw (hd.safe t.size)

theorem bswap_simd_does (t : Elem) {s : Isa} (hs' : s ≠ .sse2 ∧ s ≠ .ssse3) {k m p q xs} (hl : xs.length = t.size * k) (hs : HasBytes m p xs)
    (hw : CanWrite m q (t.size * k)) (hd : Behind p q (t.size * k)) : Does (bswap_simd t s p k q) () (swapS t) xs q (t.size * k) m := by
  have hb := hs.bound
  have hsl := size_lanes t
  have hloop := loop_specS (F := bswap_simd_loop t s) (ret := fun p q => (p, q)) (a := 32) (b := 32) (by omega)
    (by intro e p q h; rw [bswap_simd_loop, if_neg h]) (swapS_nil t)
    (by intro xs ys h; exact swapS_append t (k := t.lanes) ys (by omega))
    (by
      intro e m p q xs Q E hp hl hx hw hd hgo _
      have hb := hx.bound
      unfold CanWrite at hw
      obtain ⟨y, h1, hy⟩ := swap_simd_eq hs' t (.ofList xs)
      rw [bswap_simd_loop, if_pos hp]
      simp only [wp_bind, wp_v256_load hx hl, h1, wp_liftO_some, wp_v256_store, wp_padd, Mem.write_size, hsl]
      refine ⟨by omega, by omega, by omega, ?_⟩
      rw [revVec_toList hl hy]
      exact hgo _ rfl (by rw [swapB_length t.size (size_pos t) (k := t.lanes) (by omega), hsl]))
  have hk : t.size * (k / t.lanes * t.lanes) = 32 * (k / t.lanes) := by
    rw [Nat.mul_comm (k / t.lanes), ← Nat.mul_assoc, hsl]
  have hsum : t.size * k = 32 * (k / t.lanes) + t.size * (k % t.lanes) := by
    rw [← hsl, Nat.mul_assoc, ← Nat.mul_add, Nat.div_add_mod]
  unfold CanWrite at hw
  unfold bswap_simd
  refine Does.padd (by omega) ?_
  rw [hk]
  have ht : (xs.take (32 * (k / t.lanes))).length = 32 * (k / t.lanes) := by rw [List.length_take]; omega
  refine Does.seqS hs (k := 32 * (k / t.lanes)) (n1 := 32 * (k / t.lanes)) (n2 := t.size * (k % t.lanes)) (by omega) (by unfold CanWrite; omega) hsum
    (by unfold Behind at hd; omega) (swapS_append t (k := t.lanes * (k / t.lanes)) _ (by rw [← Nat.mul_assoc, hsl]; exact ht))
    (hloop (k / t.lanes) m p q _ ht (hs.take _) (by unfold CanWrite; omega) ((hd.mono (by omega)).safe 32)) ?_
  intro m' hx' hw' hsz
  refine bswap_fallback_does t (by rw [List.length_drop]; omega) hx' hw' ?_
  unfold Behind at hd ⊢
  simp only [Ptr.add_buf, Ptr.add_off]
  omega

theorem swap_auto_does (t : Elem) {i : Option Isa} (hi : i ≠ some .sse2 ∧ i ≠ some .ssse3) {k m p q xs} (hl : xs.length = t.size * k) (hs : HasBytes m p xs)
    (hw : CanWrite m q (t.size * k)) (hd : Behind p q (t.size * k)) : Does (swap_auto t i p k q) () (swapS t) xs q (t.size * k) m := by
  cases i with
  | none => exact bswap_fallback_does t hl hs hw hd
  | some s => exact bswap_simd_does t ⟨fun h => hi.1 (by rw [h]), fun h => hi.2 (by rw [h])⟩ hl hs hw hd

/-- Fewer than `LANES` elements: the vector loop does not run, so every instruction set works. -/
theorem swap_short_does (t : Elem) {i : Option Isa} {k m p q xs} (hk : k < t.lanes) (hl : xs.length = t.size * k) (hs : HasBytes m p xs)
    (hw : CanWrite m q (t.size * k)) (hd : Behind p q (t.size * k)) : Does (swap_auto t i p k q) () (swapS t) xs q (t.size * k) m := by
  have hb := hs.bound
  cases i with
  | none => exact bswap_fallback_does t hl hs hw hd
  | some s =>
    show Does (bswap_simd t s p k q) () (swapS t) xs q (t.size * k) m
    unfold bswap_simd
    refine Does.padd (by rw [Nat.div_eq_of_lt hk]; simp; omega) ?_
    rw [Nat.div_eq_of_lt hk, Nat.mod_eq_of_lt hk, bswap_simd_loop, if_neg (by simp)]
    exact bswap_fallback_does t hl hs hw hd

/-- The vector kernel of the swaps is not implemented for SSE2 and SSSE3. -/
theorem swap_simd_none (t : Elem) {s : Isa} (hs : s = .sse2 ∨ s = .ssse3) (x : V256) : swap_simd t s x = none := by
  rcases hs with rfl | rfl <;> cases t <;> rfl

/-- With SSE2 or SSSE3, a slice of at least `LANES` elements panics. -/
theorem swap_panics (t : Elem) {s : Isa} (hs : s = .sse2 ∨ s = .ssse3) {k m p q xs} (hk : t.lanes ≤ k) (hl : xs.length = t.size * k) (hx : HasBytes m p xs) :
    (swap_auto t (some s) p k q).run m = .panic := by
  have hb := hx.bound
  have hsl := size_lanes t
  have hk1 : t.size * (k / t.lanes * t.lanes) = 32 * (k / t.lanes) := by
    rw [Nat.mul_comm (k / t.lanes), ← Nat.mul_assoc, hsl]
  have hsum : t.size * k = 32 * (k / t.lanes) + t.size * (k % t.lanes) := by
    rw [← hsl, Nat.mul_assoc, ← Nat.mul_add, Nat.div_add_mod]
  have hpos : 0 < k / t.lanes := Nat.div_pos hk (lanes_pos t)
  show (bswap_simd t s p k q).run m = .panic
  unfold bswap_simd
  rw [hk1, bswap_simd_loop, if_pos (by omega)]
  have hload : (v256_load s p).run m = .ok (.ofList (xs.take 32)) m := by
    have := wp_out (x := v256_load s p) (Q := fun a m' => a = .ofList (xs.take 32) ∧ m' = m) (E := fun _ => False) (m := m)
      ((wp_v256_load (hx.take 32) (by rw [List.length_take]; omega)).2 ⟨rfl, rfl⟩)
    rcases this with ⟨a, m', h, rfl, rfl⟩ | ⟨m', h, hf⟩
    · exact h
    · exact hf.elim
  have hpadd : (padd p (32 * (k / t.lanes))).run m = .ok () m := by
    have := wp_out (x := padd p (32 * (k / t.lanes))) (Q := fun _ m' => m' = m) (E := fun _ => False) (m := m) (wp_padd.2 ⟨by omega, rfl⟩)
    rcases this with ⟨a, m', h, rfl⟩ | ⟨m', h, hf⟩
    · exact h
    · exact hf.elim
  simp only [run_bind, hpadd, hload, swap_simd_none t hs, liftO]
  rfl

/-! ### Words -/

theorem swapB_words {w : Nat} (n : Nat) (hn : 0 < n) (sw : BitVec w → BitVec w) (h : ∀ x k, k < n → Spec.wordByte (sw x) k = Spec.wordByte x (n - 1 - k))
    (ws : List (BitVec w)) : swapB n (Spec.wordBytes n ws) = Spec.wordBytes n (ws.map sw) := by
  induction ws with
  | nil => simp [Spec.wordBytes, swapB]
  | cons a ws ih =>
    rw [List.map_cons, wordBytes_cons, wordBytes_cons, swapB_append hn (k := 1) _ (by simp), ih]
    congr 1
    unfold swapB
    rw [blocks_one hn (by simp)]
    unfold revG
    apply List.map_congr_left
    intro i hi
    have := List.mem_range.1 hi
    rw [h a i this]
    dsimp only
    rw [List.getD_eq_getElem?_getD, List.getElem?_map, List.getElem?_range (by omega)]
    rfl

theorem wordByte_toNat {w} (x : BitVec w) (k) : (Spec.wordByte x k).toNat = x.toNat / 256 ^ k % 256 := by
  unfold Spec.wordByte; rw [BitVec.toNat_ofNat]

theorem swap16_toNat (x : BitVec 16) : ∃ a b : Nat, a < 256 ∧ b < 256 ∧ x.toNat = a + 256 * b ∧ (Spec.swap16 x).toNat = b + 256 * a := by
  have hx := x.isLt
  refine ⟨x.toNat % 256, x.toNat / 256, by omega, by omega, by omega, ?_⟩
  unfold Spec.swap16
  rw [BitVec.toNat_ofNat, Nat.mod_eq_of_lt (by omega)]
  omega

theorem swap32_toNat (x : BitVec 32) : ∃ a b c d : Nat, a < 256 ∧ b < 256 ∧ c < 256 ∧ d < 256 ∧ x.toNat = a + 256 * b + 65536 * c + 16777216 * d ∧
    (Spec.swap32 x).toNat = d + 256 * c + 65536 * b + 16777216 * a := by
  have hx := x.isLt
  refine ⟨x.toNat % 256, x.toNat / 256 % 256, x.toNat / 65536 % 256, x.toNat / 16777216, by omega, by omega, by omega, by omega, by omega, ?_⟩
  unfold Spec.swap32
  simp only [Nat.reducePow]
  rw [BitVec.toNat_ofNat, Nat.mod_eq_of_lt (by omega)]
  omega

theorem bytes2 {a b : Nat} (ha : a < 256) (hb : b < 256) : (a + 256 * b) / 256 ^ 0 % 256 = a ∧ (a + 256 * b) / 256 ^ 1 % 256 = b := by
  simp only [Nat.reducePow]
  refine ⟨?_, ?_⟩ <;> omega

theorem swap16_byte (x : BitVec 16) (k : Nat) (hk : k < 2) : Spec.wordByte (Spec.swap16 x) k = Spec.wordByte x (2 - 1 - k) := by
  apply BitVec.eq_of_toNat_eq
  rw [wordByte_toNat, wordByte_toNat]
  obtain ⟨a, b, ha, hb, h1, h2⟩ := swap16_toNat x
  obtain ⟨e1, e2⟩ := bytes2 ha hb
  obtain ⟨f1, f2⟩ := bytes2 hb ha
  rw [h1, h2]
  match k, hk with
  | 0, _ => rw [f1, e2]
  | 1, _ => rw [f2, e1]

theorem bytes4 {a b c d : Nat} (ha : a < 256) (hb : b < 256) (hc : c < 256) (hd : d < 256) :
    (a + 256 * b + 65536 * c + 16777216 * d) / 256 ^ 0 % 256 = a ∧ (a + 256 * b + 65536 * c + 16777216 * d) / 256 ^ 1 % 256 = b ∧
    (a + 256 * b + 65536 * c + 16777216 * d) / 256 ^ 2 % 256 = c ∧ (a + 256 * b + 65536 * c + 16777216 * d) / 256 ^ 3 % 256 = d := by
  simp only [Nat.reducePow]
  refine ⟨?_, ?_, ?_, ?_⟩ <;> omega

theorem swap32_byte (x : BitVec 32) (k : Nat) (hk : k < 4) : Spec.wordByte (Spec.swap32 x) k = Spec.wordByte x (4 - 1 - k) := by
  apply BitVec.eq_of_toNat_eq
  rw [wordByte_toNat, wordByte_toNat]
  obtain ⟨a, b, c, d, ha, hb, hc, hd, h1, h2⟩ := swap32_toNat x
  obtain ⟨e1, e2, e3, e4⟩ := bytes4 ha hb hc hd
  obtain ⟨f1, f2, f3, f4⟩ := bytes4 hd hc hb ha
  rw [h1, h2]
  match k, hk with
  | 0, _ => rw [f1, e4]
  | 1, _ => rw [f2, e3]
  | 2, _ => rw [f3, e2]
  | 3, _ => rw [f4, e1]

theorem swap16_swap16 (x : BitVec 16) : Spec.swap16 (Spec.swap16 x) = x := by
  apply BitVec.eq_of_toNat_eq
  obtain ⟨a, b, ha, hb, h1, h2⟩ := swap16_toNat x
  obtain ⟨a', b', ha', hb', h1', h2'⟩ := swap16_toNat (Spec.swap16 x)
  omega

theorem swap32_swap32 (x : BitVec 32) : Spec.swap32 (Spec.swap32 x) = x := by
  apply BitVec.eq_of_toNat_eq
  obtain ⟨a, b, c, d, ha, hb, hc, hd, h1, h2⟩ := swap32_toNat x
  obtain ⟨a', b', c', d', ha', hb', hc', hd', h1', h2'⟩ := swap32_toNat (Spec.swap32 x)
  obtain ⟨f1, f2, f3, f4⟩ := bytes4 hd hc hb ha
  obtain ⟨g1, g2, g3, g4⟩ := bytes4 ha' hb' hc' hd'
  rw [← h2, h1'] at f1 f2 f3 f4
  rw [h2', h1, ← f1, ← f2, ← f3, ← f4, g1, g2, g3, g4]

end Unicode
end Simd
