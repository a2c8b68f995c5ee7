import Verif.Lemmas.HexKernel
/-
Every implementation of hex decoding computes `hexDec`.
-/
namespace Simd
namespace Hex
open Vs IsaId Intrin

/-- The bytes `decode_bits` writes, valid or not. -/
def rawDec (xs : List Byte) : List Byte := blocks 2 decG (xs.map parse_hex)
/-- The accumulated validity flag. -/
def orAll (flag : Byte) (xs : List Byte) : Byte := xs.foldl (fun f c => f ||| parse_hex c) flag

theorem rawDec_append {xs ys : List Byte} (h : xs.length % 2 = 0) : rawDec (xs ++ ys) = rawDec xs ++ rawDec ys := by
  unfold rawDec
  rw [List.map_append, blocks_append (by omega) (k := xs.length / 2) (by simp; omega) decG_loc]
theorem rawDec_length (xs) : (rawDec xs).length = xs.length / 2 := by
  rw [rawDec, blocks_length decG_length]; simp

theorem or_small (f c : Byte) (hf : f.toNat < 16) (hc : c.toNat < 16) : (f ||| c).toNat < 16 := by
  rw [BitVec.toNat_or]; exact Nat.or_lt_two_pow (n := 4) hf hc

theorem orAll_bad (xs) : orAll 255#8 xs = 255#8 := by
  induction xs with
  | nil => rfl
  | cons x xs ih => simp only [orAll, List.foldl_cons] at ih ⊢; rw [show (255#8 ||| parse_hex x) = 255#8 by rw [BitVec.or_comm]; exact BitVec.or_allOnes (w := 8)]; exact ih

theorem orAll_spec (xs) (f : Byte) (hf : f.toNat < 16) :
    (orAll f xs != 255#8) = xs.all fun c => parse_hex c != 255#8 := by
  induction xs generalizing f with
  | nil =>
    simp only [orAll, List.foldl_nil, List.all_nil, bne_iff_ne]
    rintro rfl; simp at hf
  | cons x xs ih =>
    have e : orAll f (x :: xs) = orAll (f ||| parse_hex x) xs := rfl
    rw [e, List.all_cons]
    rcases parse_hex_cases x with h | h
    · rw [h, show (f ||| 255#8) = 255#8 from BitVec.or_allOnes (w := 8), orAll_bad]; rfl
    · rw [ih _ (or_small _ _ hf h), show (parse_hex x != 255#8) = true by
        rw [bne_iff_ne]; intro h'; rw [h'] at h; simp at h]; rfl

theorem hexDec_raw (xs) : hexDec xs = if orAll 0#8 xs != 255#8 then some (rawDec xs) else none := by
  rw [orAll_spec xs 0#8 (by simp)]; rfl

theorem decode_bits_wp {m p q x y} {Q : Byte → Mem → Prop} {E} (hs : HasBytes m p [x, y]) (hw : CanWrite m q 1) :
    wp (decode_bits p q) Q E m ↔ Q (parse_hex x ||| parse_hex y) (m.write q (rawDec [x, y])) := by
  unfold CanWrite at hw
  simp only [decode_bits, wp_bind, wp_rd_iff hs (show 0 < [x, y].length by simp), wp_rd_iff hs (show 1 < [x, y].length by simp),
    List.getElem_cons_zero, List.getElem_cons_succ, wp_wrt, Ptr.add_zero, wp_pure, unhex]
  rw [rawDec, List.map_cons, List.map_cons, List.map_nil, blocks_one (a := 2) (by omega) rfl]
  simp only [decG]
  constructor
  · exact fun h => h.2
  · exact fun h => ⟨by omega, h⟩

/-- Decoding `2 * k` characters from `p` to `q` never overwrites a character that is still to be read. -/
def DecSafe (p q : Ptr) (k : Nat) : Prop := p.buf ≠ q.buf ∨ q.off ≤ p.off ∨ p.off + 2 * k ≤ q.off

/-- The unrolled loops that only accumulate the flag. -/
theorem decode_long_inner_wp : ∀ {k m p q xs flag} {Q : Byte → Mem → Prop} {E}, xs.length = 2 * k → HasBytes m p xs →
    CanWrite m q k → DecSafe p q k → Q (orAll flag xs) (m.write q (rawDec xs)) →
    wp (decode_long_inner k p q flag) Q E m := by
  intro k
  induction k with
  | zero =>
    intro m p q xs flag Q E hl hs hw hd hQ
    have : xs = [] := List.length_eq_zero_iff.1 hl
    subst this
    simpa [decode_long_inner, rawDec, orAll] using hQ
  | succ k ih =>
    intro m p q xs flag Q E hl hs hw hd hQ
    match xs, hl with
    | x :: y :: xs, hl =>
      have hb := hs.bound
      have hs' : HasBytes m p ([x, y] ++ xs) := hs
      unfold CanWrite at hw
      simp only [List.length_cons] at hl hb
      rw [decode_long_inner, wp_bind, decode_bits_wp hs'.left (by unfold CanWrite; omega)]
      simp only [wp_bind, wp_padd, Mem.write_size]
      refine ⟨by omega, by omega, ?_⟩
      refine ih (xs := xs) (by omega) (hs'.right.write ?_) (by unfold CanWrite; simp; omega) ?_ ?_
      · unfold DecSafe at hd; simp [rawDec_length]; omega
      · unfold DecSafe at hd ⊢; simp; omega
      rw [Mem.write_append' m q _ _ (by simp [rawDec_length]), ← rawDec_append (xs := [x, y]) (by simp)]
      have : orAll (flag ||| (parse_hex x ||| parse_hex y)) xs = orAll flag (x :: y :: xs) := by
        simp only [orAll, List.foldl_cons, BitVec.or_assoc]
      rw [this]
      exact hQ

theorem decode_short_loop2_eq : ∀ k (p q flag), decode_short_loop2 (p.off + 2 * k) p q flag = decode_long_inner k p q flag := by
  intro k
  induction k with
  | zero => intro p q flag; rw [decode_short_loop2, if_neg (by omega)]; rfl
  | succ k ih =>
    intro p q flag
    rw [decode_short_loop2, if_pos (by omega), decode_long_inner]
    have e : ∀ f : Byte, decode_short_loop2 (p.off + 2 * (k + 1)) (p.add 2) (q.add 1) (flag ||| f) =
        decode_long_inner k (p.add 2) (q.add 1) (flag ||| f) := by
      intro f; rw [← ih]; congr 1; simp; omega
    simp only [e]

theorem disj_of {p q : Ptr} {k a b r : Nat} (h : DecSafe p q k) (hab : b ≤ a) (hr : a * r ≤ 2 * k) : Safe p q a b r := by
  rcases h with h | h | h
  · exact .inl h
  · exact .inr (.inl ⟨h, hab⟩)
  · right; right; left; omega

theorem decApp {k} (xs : List Byte) (hk : k % 2 = 0) (hl : k ≤ xs.length) :
    hexDec (xs.take k ++ xs.drop k) = (hexDec (xs.take k)).bind fun u => (hexDec (xs.drop k)).map (u ++ ·) :=
  hexDec_append (by rw [List.length_take, Nat.min_eq_left hl]; exact hk)

theorem disj_step {p q : Ptr} {k k' a b : Nat} (h : DecSafe p q k) (hab : b ≤ a) (hk : 2 * k' + a ≤ 2 * k + b) :
    DecSafe (p.add a) (q.add b) k' := by
  unfold DecSafe at h ⊢; simp; omega

theorem decode_short_spec (s : Option Isa) {m p q xs k} (hx : HasBytes m p xs) (hl : xs.length = 2 * k) (hw : CanWrite m q k)
    (hd : DecSafe p q k) :
    Does (decode_short s p (2 * k) q) () hexDec xs q k m := by
  have hb := hx.bound
  unfold decode_short
  split
  · refine Does.padd (by omega) ?_
    have := loop_specS (F := decode_short_loop1) (ret := fun _ _ => ()) (a := 2) (b := 1) (by omega)
      (fun e p q h => by rw [decode_short_loop1, if_neg h]) (spec := hexDec) hexDec_nil (fun xs ys h => hexDec_append (by omega))
      (by
        intro e m p q xs Q E he hl hs hw hd hk hk'
        match xs, hl with
        | [x, y], _ =>
          have hb := hs.bound
          unfold CanWrite at hw
          rw [decode_short_loop1, if_pos he, wp_bind, decode_bits_wp hs hw]
          simp only [wp_bind, wp_ensure, wp_padd, Mem.write_size]
          have hr := hexDec_raw [x, y]
          have e2 : orAll 0#8 [x, y] = parse_hex x ||| parse_hex y := by simp [orAll]
          rw [e2] at hr
          split <;> rename_i h
          · rw [if_pos (by exact h)] at hr
            exact ⟨by simpa using hb, by omega, hk _ hr (by simp [rawDec_length])⟩
          · rw [if_neg (by exact h)] at hr
            refine hk' hr _ (SameOutside.write rfl (Nat.le_refl _) (by rw [rawDec_length]; simp)))
      k m p q xs hl hx (by rw [Nat.one_mul]; exact hw) (disj_of hd (by omega) (by omega))
    simpa only [Nat.one_mul] using this
  · refine Does.padd (by omega) ?_
    rw [decode_short_loop2_eq]
    unfold Does
    rw [wp_bind]
    refine decode_long_inner_wp hl hx hw hd ?_
    rw [wp_ensure]
    have hr := hexDec_raw xs
    split <;> rename_i h
    · rw [if_pos (by exact h)] at hr; exact ⟨rfl, _, hr, by rw [rawDec_length]; omega, rfl⟩
    · rw [if_neg (by exact h)] at hr
      exact ⟨hr, SameOutside.write rfl (Nat.le_refl _) (by rw [rawDec_length]; omega)⟩

theorem decode_long_spec {m p q xs k} (hx : HasBytes m p xs) (hl : xs.length = 2 * k) (hw : CanWrite m q k)
    (hd : DecSafe p q k) :
    Does (decode_long p (2 * k) q) () hexDec xs q k m := by
  have hb := hx.bound
  unfold CanWrite at hw
  unfold decode_long
  refine Does.padd (by omega) ?_
  rw [show 2 * k / 16 * 16 = 16 * (k / 8) by omega]
  refine Does.seqS (k := 16 * (k / 8)) (n1 := 8 * (k / 8)) (n2 := k % 8) hx (by omega) hw (by omega) (by unfold DecSafe at hd; omega)
    (decApp _ (by omega) (by omega))
    (loop_specS (F := decode_long_loop) (ret := fun p q => (p, q)) (a := 16) (b := 8) (by omega)
      (fun e p q h => by rw [decode_long_loop, if_neg h]) hexDec_nil (fun xs ys h => hexDec_append (by omega))
      (by
        intro e m p q xs Q E he hl hx hw hd' hk hk'
        rw [decode_long_loop, if_pos he, wp_bind]
        refine decode_long_inner_wp hl hx hw (by unfold Safe at hd'; unfold DecSafe; omega) ?_
        rw [wp_bind, wp_ensure]
        have hr := hexDec_raw xs
        split <;> rename_i h
        · rw [if_pos (by exact h)] at hr; exact hk _ hr (by rw [rawDec_length]; omega)
        · rw [if_neg (by exact h)] at hr
          exact hk' hr _ (SameOutside.write rfl (Nat.le_refl _) (by rw [rawDec_length]; omega)))
      (k / 8) m p q _ (by rw [List.length_take]; omega) (hx.take _) (by unfold CanWrite; omega) (disj_of hd (by omega) (by omega))) ?_
  intro m' hx' hw' _
  rw [show 2 * k % 16 = 2 * (k % 8) by omega]
  exact decode_short_spec none hx' (by rw [List.length_drop]; omega) hw' (disj_step hd (by omega) (by omega))

/-! ### Vector blocks -/

theorem decode16_wp {s : Isa} (hs : s ≠ .sse2) {m p q xs} {Q : Unit → Mem → Prop} {E} (hx : HasBytes m p xs) (hl : xs.length = 16)
    (hw : CanWrite m q 8) (h1 : ∀ ys, hexDec xs = some ys → ys.length = 8 → Q () (m.write q ys)) (h2 : hexDec xs = none → E m) :
    wp (decode16 s p q) Q E m := by
  obtain ⟨r, hr, hd⟩ := decode_ascii16_spec s hs xs hl
  simp only [decode16, wp_bind, wp_v128_load hx hl, hr]
  cases r with
  | error e => simp only [wp_liftR_error]; exact h2 hd
  | ok v =>
    simp only [wp_liftR_ok, wp_storeBytes, Vec.toList_length]
    exact ⟨hw, h1 _ hd (by simp)⟩

theorem decode32_wp {s : Isa} (hs : s ≠ .sse2) {m p q xs} {Q : Unit → Mem → Prop} {E} (hx : HasBytes m p xs) (hl : xs.length = 32)
    (hw : CanWrite m q 16) (h1 : ∀ ys, hexDec xs = some ys → ys.length = 16 → Q () (m.write q ys)) (h2 : hexDec xs = none → E m) :
    wp (decode32 s p q) Q E m := by
  obtain ⟨r, hr, hd⟩ := decode_ascii32_spec s hs xs hl
  simp only [decode32, wp_bind, wp_v256_load hx hl, hr]
  cases r with
  | error e => simp only [wp_liftR_error]; exact h2 hd
  | ok v =>
    simp only [wp_liftR_ok, wp_v128_store]
    exact ⟨hw, h1 _ hd (by simp)⟩

theorem decode16_does {s : Isa} (hs : s ≠ .sse2) {m p q xs} (hx : HasBytes m p xs) (hl : xs.length = 16) (hw : CanWrite m q 8) :
    Does (decode16 s p q) () hexDec xs q 8 m :=
  decode16_wp hs hx hl hw (fun ys h h' => ⟨rfl, ys, h, h', rfl⟩) fun h => ⟨h, SameOutside.refl⟩
theorem decode32_does {s : Isa} (hs : s ≠ .sse2) {m p q xs} (hx : HasBytes m p xs) (hl : xs.length = 32) (hw : CanWrite m q 16) :
    Does (decode32 s p q) () hexDec xs q 16 m :=
  decode32_wp hs hx hl hw (fun ys h h' => ⟨rfl, ys, h, h', rfl⟩) fun h => ⟨h, SameOutside.refl⟩

theorem decode_tail16_spec {s : Isa} (hs : s ≠ .sse2) {m p q xs k} (hx : HasBytes m p xs) (hl : xs.length = 2 * k) (hw : CanWrite m q k)
    (hd : DecSafe p q k) :
    Does (decode_tail16 s p (2 * k) q) () hexDec xs q k m := by
  have hb := hx.bound
  unfold CanWrite at hw
  unfold decode_tail16
  split
  · refine Does.seqS (k := 16) (n1 := 8) (n2 := k - 8) hx (by omega) hw (by omega) (by unfold DecSafe at hd; omega)
      (decApp _ (by omega) (by omega))
      (decode16_does hs (hx.take _) (by rw [List.length_take]; omega) (by unfold CanWrite; omega)) ?_
    intro m' hx' hw' hsz
    refine Does.padd (by rw [hsz]; omega) (Does.padd (by rw [hsz]; omega) ?_)
    rw [show 2 * k - 16 = 2 * (k - 8) by omega]
    exact decode_short_spec _ hx' (by rw [List.length_drop]; omega) hw' (disj_step hd (by omega) (by omega))
  · exact decode_short_spec _ hx hl hw hd

theorem decode_simd_v256_spec {s : Isa} (hs : s ≠ .sse2) {m p q xs k} (hx : HasBytes m p xs) (hl : xs.length = 2 * k) (hw : CanWrite m q k)
    (hd : DecSafe p q k) :
    Does (decode_simd_v256 s p (2 * k) q) () hexDec xs q k m := by
  have hb := hx.bound
  unfold decode_simd_v256
  split
  · obtain rfl : k = 8 := by omega
    exact decode16_does hs hx hl hw
  split
  · obtain rfl : k = 16 := by omega
    exact decode32_does hs hx hl hw
  unfold CanWrite at hw
  refine Does.padd (by omega) ?_
  rw [show 2 * k / 64 * 64 = 64 * (k / 32) by omega]
  refine Does.seqS (k := 64 * (k / 32)) (n1 := 32 * (k / 32)) (n2 := k % 32) hx (by omega) hw (by omega) (by unfold DecSafe at hd; omega)
    (decApp _ (by omega) (by omega))
    (loop_specS (F := decode_loop64 s) (ret := fun p q => (p, q)) (a := 64) (b := 32) (by omega)
      (fun e p q h => by rw [decode_loop64, if_neg h]) hexDec_nil (fun xs ys h => hexDec_append (by omega))
      (by
        intro e m p q xs Q E he hl hx hw hd' hk hk'
        have hb := hx.bound
        unfold CanWrite at hw
        have h1 : (xs.take 32).length = 32 := by rw [List.length_take]; omega
        have h2 : (xs.drop 32).length = 32 := by rw [List.length_drop]; omega
        obtain ⟨r, hr, hdr⟩ := decode_ascii32x2_spec s hs (xs.take 32) (xs.drop 32) h1 h2
        rw [List.take_append_drop] at hdr
        rw [decode_loop64, if_pos he]
        simp only [wp_bind, wp_v256_load (hx.take 32) h1, wp_v256_load (hx.drop 32 (by omega)) h2, hr, wp_padd]
        refine ⟨by omega, by omega, ?_⟩
        cases r with
        | error e => simp only [wp_liftR_error]; exact hk' hdr _ (SameOutside.refl)
        | ok v =>
          simp only [wp_liftR_ok, wp_v256_store, Mem.write_size]
          exact ⟨by omega, by omega, hk _ hdr (by simp)⟩)
      (k / 32) m p q _ (by rw [List.length_take]; omega) (hx.take _) (by unfold CanWrite; omega) (disj_of hd (by omega) (by omega))) ?_
  intro m' hx' hw' hsz
  have hl' : (xs.drop (64 * (k / 32))).length = 2 * (k % 32) := by rw [List.length_drop]; omega
  have hd' : DecSafe (p.add (64 * (k / 32))) (q.add (32 * (k / 32))) (k % 32) := disj_step hd (by omega) (by omega)
  have hb' := hx'.bound
  simp only []
  rw [show 2 * k % 64 = 2 * (k % 32) by omega]
  unfold CanWrite at hw'
  split
  · exact Does.nil hexDec_nil (by omega) (by omega)
  split
  · refine Does.seqS (k := 32) (n1 := 16) (n2 := k % 32 - 16) hx' (by omega) hw' (by omega) (by unfold DecSafe at hd'; omega)
      (decApp _ (by omega) (by omega))
      (decode32_does hs (hx'.take _) (by rw [List.length_take]; omega) (by unfold CanWrite; omega)) ?_
    intro m'' hx'' hw'' hsz'
    refine Does.padd (by rw [hsz']; omega) (Does.padd (by rw [hsz']; omega) ?_)
    rw [show 2 * (k % 32) - 32 = 2 * (k % 32 - 16) by omega]
    exact decode_tail16_spec hs hx'' (by rw [List.length_drop]; omega) hw'' (disj_step hd' (by omega) (by omega))
  · exact decode_tail16_spec hs hx' hl' hw' hd'

theorem decode_simd_v128_spec {s : Isa} (hs : s ≠ .sse2) {m p q xs k} (hx : HasBytes m p xs) (hl : xs.length = 2 * k) (hw : CanWrite m q k)
    (hd : DecSafe p q k) :
    Does (decode_simd_v128 s p (2 * k) q) () hexDec xs q k m := by
  have hb := hx.bound
  unfold decode_simd_v128
  unfold CanWrite at hw
  refine Does.padd (by omega) ?_
  rw [show 2 * k / 32 * 32 = 32 * (k / 16) by omega]
  refine Does.seqS (k := 32 * (k / 16)) (n1 := 16 * (k / 16)) (n2 := k % 16) hx (by omega) hw (by omega) (by unfold DecSafe at hd; omega)
    (decApp _ (by omega) (by omega))
    (loop_specS (F := decode_loop32 s) (ret := fun p q => (p, q)) (a := 32) (b := 16) (by omega)
      (fun e p q h => by rw [decode_loop32, if_neg h]) hexDec_nil (fun xs ys h => hexDec_append (by omega))
      (by
        intro e m p q xs Q E he hl hx hw hd' hk hk'
        have hb := hx.bound
        unfold CanWrite at hw
        rw [decode_loop32, if_pos he, wp_bind]
        refine decode32_wp hs hx hl hw (fun ys hy hyl => ?_) (fun h => hk' h _ (SameOutside.refl))
        simp only [wp_bind, wp_padd, Mem.write_size]
        exact ⟨by omega, by omega, hk _ hy hyl⟩)
      (k / 16) m p q _ (by rw [List.length_take]; omega) (hx.take _) (by unfold CanWrite; omega) (disj_of hd (by omega) (by omega))) ?_
  intro m' hx' hw' hsz
  have hl' : (xs.drop (32 * (k / 16))).length = 2 * (k % 16) := by rw [List.length_drop]; omega
  simp only []
  rw [show 2 * k % 32 = 2 * (k % 16) by omega]
  split
  · exact Does.nil hexDec_nil (by omega) (by omega)
  · exact decode_tail16_spec hs hx' hl' hw' (disj_step hd (by omega) (by omega))

theorem decode_simd_sse2_spec {m p q xs k} (hx : HasBytes m p xs) (hl : xs.length = 2 * k) (hw : CanWrite m q k)
    (hd : DecSafe p q k) :
    Does (decode_simd_sse2 p (2 * k) q) () hexDec xs q k m := by
  have hb := hx.bound
  unfold decode_simd_sse2
  unfold CanWrite at hw
  refine Does.padd (by omega) ?_
  rw [show 2 * k / 16 * 16 = 16 * (k / 8) by omega]
  refine Does.seqS (k := 16 * (k / 8)) (n1 := 8 * (k / 8)) (n2 := k % 8) hx (by omega) hw (by omega) (by unfold DecSafe at hd; omega)
    (decApp _ (by omega) (by omega))
    (loop_specS (F := decode_loop_sse2) (ret := fun p q => (p, q)) (a := 16) (b := 8) (by omega)
      (fun e p q h => by rw [decode_loop_sse2, if_neg h]) hexDec_nil (fun xs ys h => hexDec_append (by omega))
      (by
        intro e m p q xs Q E he hl hx hw hd' hk hk'
        have hb := hx.bound
        unfold CanWrite at hw
        obtain ⟨n, f, hn, hf, hv⟩ := sse2_decode_nibbles_spec (.ofList xs)
        obtain ⟨v, hmv, hlane⟩ := sse2_merge_bits_spec n
        rw [decode_loop_sse2, if_pos he]
        simp only [wp_bind, wp_v128_load hx hl, hn, wp_liftO_some]
        have hbm : u8x16_bitmask .sse2 f = some (movemask f) := by simp [u8x16_bitmask, Isa.is]
        rw [hbm, wp_liftO_some, wp_ensure, movemask_eq_zero, anyLane_congr (fun i _ => hf i)]
        split <;> rename_i hc
        · rw [hmv, wp_liftO_some, wp_storeBytes, wp_padd, wp_padd]
          simp only [Vec.toList_length, Mem.write_size]
          have hall : ∀ c ∈ xs, parse_hex c ≠ 255#8 := by
            intro c hcm h255
            have := (any_invalid xs hl).2 ⟨c, hcm, h255⟩
            rw [this] at hc; simp at hc
          have hal : ∀ i, i < 16 → parse_hex (xs.getD i 0) ≠ 255#8 := by
            intro i hi
            rw [List.getD_eq_getElem?_getD, List.getElem?_eq_getElem (by omega)]
            exact hall _ (List.getElem_mem _)
          have hsm : ∀ i, i < 16 → n.lane i = parse_hex (xs.getD i 0) := by
            intro i hi
            have := hv i
            rw [Vec.ofList_lane] at this
            exact this (hal i hi)
          refine ⟨by omega, by omega, by omega, hk _ (hexDec_eq_some v xs (by omega) hall ?_) (by simp)⟩
          intro i hi
          rw [hlane i hi, hsm _ (by omega), hsm _ (by omega)]
          · rw [hsm _ (by omega)]; exact (parse_hex_cases _).resolve_left (hal _ (by omega))
          · rw [hsm _ (by omega)]; exact (parse_hex_cases _).resolve_left (hal _ (by omega))
        · refine hk' (hexDec_eq_none ((any_invalid xs hl).1 ?_)) _ (SameOutside.refl)
          simpa using hc)
      (k / 8) m p q _ (by rw [List.length_take]; omega) (hx.take _) (by unfold CanWrite; omega) (disj_of hd (by omega) (by omega))) ?_
  intro m' hx' hw' hsz
  have hl' : (xs.drop (16 * (k / 8))).length = 2 * (k % 8) := by rw [List.length_drop]; omega
  simp only []
  rw [show 2 * k % 16 = 2 * (k % 8) by omega]
  split
  · exact Does.nil hexDec_nil (by omega) (by omega)
  · exact decode_short_spec _ hx' hl' hw' (disj_step hd (by omega) (by omega))

/-- All implementations of `decode`. -/
theorem decode_auto_spec (i : Option Isa) {m p q xs k} (hx : HasBytes m p xs) (hl : xs.length = 2 * k) (hw : CanWrite m q k)
    (hd : DecSafe p q k) :
    Does (decode_auto i p (2 * k) q) () hexDec xs q k m := by
  cases i with
  | none => exact decode_long_spec hx hl hw hd
  | some s =>
    simp only [decode_auto, decode_simd]
    split
    · exact decode_simd_sse2_spec hx hl hw hd
    · rename_i hs
      split
      · exact decode_simd_v256_spec hs hx hl hw hd
      · exact decode_simd_v128_spec hs hx hl hw hd

end Hex
end Simd
