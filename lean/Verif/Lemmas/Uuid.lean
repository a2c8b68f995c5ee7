import Verif.Lemmas.HexDecode
import Verif.Lemmas.HexEncode
import Verif.Model.Uuid
/-
Every implementation of UUID parsing and formatting computes the same function.
-/
namespace Simd.Uuid
open Vs IsaId Intrin Hex

/-! ### What the implementations compute -/

/-- The hexadecimal digits of a hyphenated text. -/
def digits (xs : List Byte) : List Byte :=
  xs.take 8 ++ ((xs.drop 9).take 4 ++ ((xs.drop 14).take 4 ++ ((xs.drop 19).take 4 ++ (xs.drop 24).take 12)))
/-- The hyphens of a hyphenated text. -/
def dashes (xs : List Byte) : Bool := xs.getD 8 0 == 0x2d#8 && xs.getD 13 0 == 0x2d#8 && xs.getD 18 0 == 0x2d#8 && xs.getD 23 0 == 0x2d#8
def hypDec (xs : List Byte) : Option (List Byte) := if dashes xs then hexDec (digits xs) else none

/-- The digits with the hyphens put in. -/
def hyph (t : List Byte) : List Byte :=
  t.take 8 ++ (0x2d#8 :: ((t.drop 8).take 4 ++ (0x2d#8 :: ((t.drop 12).take 4 ++ (0x2d#8 :: ((t.drop 16).take 4 ++ (0x2d#8 :: t.drop 20)))))))
def hypEncS (case : AsciiCase) (xs : List Byte) : Option (List Byte) := some (hyph (hexEnc case xs))

/-- A list of known length as a list of values of a function. -/
theorem list_map {xs : List Byte} {n : Nat} (h : xs.length = n) : ∃ f, xs = (List.range n).map f := by
  refine ⟨fun i => xs.getD i 0, List.ext_getElem (by simp [h]) fun i h1 h2 => ?_⟩
  simp [h1]

theorem digits_length {xs : List Byte} (h : xs.length = 36) : (digits xs).length = 32 := by
  simp [digits, h]

/-! ### Scalar parsing -/

theorem parse_simple_loop_wp {p q : Ptr} : ∀ (k i : Nat) {m} {xs : List Byte} {flag : Byte} {Q : Byte → Mem → Prop} {E}, xs.length = 2 * k →
    HasBytes m (p.add (i * 2)) xs → CanWrite m (q.add i) k → Apart (p.add (i * 2)) (q.add i) (2 * k) k → Q (orAll flag xs) (m.write (q.add i) (rawDec xs)) →
    wp (foldFrom (fun i (flag : Byte) => do
      let h1 := unhex (← rd p (i * 2))
      let h2 := unhex (← rd p (i * 2 + 1))
      wrt q i (shl4 h1 ||| h2)
      return flag ||| (h1 ||| h2)) i k flag) Q E m := by
  intro k
  induction k with
  | zero =>
    intro i m xs flag Q E hl hs hw hd hQ
    have : xs = [] := List.length_eq_zero_iff.1 hl
    subst this
    simpa [foldFrom, rawDec, orAll] using hQ
  | succ k ih =>
    intro i m xs flag Q E hl hs hw hd hQ
    match xs, hl with
    | x :: y :: xs, hl =>
      have hb := hs.bound
      have hs' : HasBytes m (p.add (i * 2)) ([x, y] ++ xs) := hs
      have h0 : HasBytes m p [] := by rw [hasBytes_nil]; simp only [Ptr.add_off, Ptr.add_buf] at hb; omega
      unfold CanWrite at hw
      simp only [List.length_cons, Ptr.add_off, Ptr.add_buf] at hl hb hw
      have hr := hs'.left
      have r0 : ∀ {Q : Byte → Mem → Prop} {E}, wp (rd p (i * 2)) Q E m ↔ Q x m := by
        intro Q E; have := wp_rd_iff (i := 0) (Q := Q) (E := E) hr (by simp); rw [List.getElem_cons_zero] at this; rw [← this]; rfl
      have r1 : ∀ {Q : Byte → Mem → Prop} {E}, wp (rd p (i * 2 + 1)) Q E m ↔ Q y m := by
        intro Q E; have := wp_rd_iff (i := 1) (Q := Q) (E := E) hr (by simp); rw [List.getElem_cons_succ, List.getElem_cons_zero] at this
        rw [← this]; simp only [rd, Ptr.add, Nat.add_assoc]
      simp only [foldFrom, wp_bind, r0, r1, wp_wrt, wp_pure, unhex]
      refine ⟨by omega, ?_⟩
      have e1 : rawDec [x, y] = [shl4 (parse_hex x) ||| parse_hex y] := by
        rw [rawDec, List.map_cons, List.map_cons, List.map_nil, blocks_one (a := 2) (by omega) rfl]; rfl
      have hd' : Apart (p.add ((i + 1) * 2)) (q.add (i + 1)) (2 * k) k := by
        have := hd.sub (c := 2) (d := 1) (a' := 2 * k) (b' := k) (by omega) (by omega)
        rwa [Ptr.add_add, Ptr.add_add, show i * 2 + 2 = (i + 1) * 2 by omega] at this
      refine ih (i + 1) (xs := xs) (by omega) ?_ ?_ hd' ?_
      · have := hs'.right.write_apart (q := q.add i) (n := 1) (by have := hd.sub (c := 2) (d := 0) (a' := xs.length) (b' := 1) (by omega) (by omega); rwa [Ptr.add_zero] at this) (zs := [shl4 (parse_hex x) ||| parse_hex y]) (Nat.le_refl _)
        rw [Ptr.add_add, show i * 2 + [x, y].length = (i + 1) * 2 by simp; omega] at this
        exact this
      · unfold CanWrite; simp; omega
      · rw [← Ptr.add_add, Mem.write_append' m (q.add i) [_] _ (n := 1) rfl, ← e1, ← rawDec_append (xs := [x, y]) (by simp)]
        have : orAll (flag ||| (parse_hex x ||| parse_hex y)) xs = orAll flag (x :: y :: xs) := by
          simp only [orAll, List.foldl_cons, BitVec.or_assoc]
        rw [this]
        exact hQ

theorem raw_does {α : Type} {r : α} {m : Mem} {q : Ptr} {xs : List Byte} {k : Nat} (hl : xs.length = 2 * k) :
    wp (do ensure (orAll 0#8 xs != 255#8); return r) (fun a m' => a = r ∧ Post hexDec xs q k m m') (Fail hexDec xs q k m) (m.write q (rawDec xs)) := by
  have hr := hexDec_raw xs
  have hlen : (rawDec xs).length = k := by rw [rawDec_length]; omega
  simp only [wp_bind, wp_ensure, wp_pure]
  split <;> rename_i h
  · rw [if_pos (by exact h)] at hr
    exact ⟨trivial, _, hr, hlen, rfl⟩
  · rw [if_neg (by exact h)] at hr
    exact ⟨hr, SameOutside.write rfl (Nat.le_refl _) (by rw [hlen])⟩

theorem parse_simple_fallback_spec {m p q} {xs : List Byte} (hx : HasBytes m p xs) (hl : xs.length = 32) (hw : CanWrite m q 16) (hd : Apart p q xs.length 16) :
    Does (parse_simple_fallback p q) () hexDec xs q 16 m := by
  unfold Does parse_simple_fallback
  rw [wp_bind]
  refine parse_simple_loop_wp 16 0 hl (by simpa using hx) (by simpa using hw) (by simpa [hl] using hd) ?_
  have := raw_does (r := ()) (m := m) (q := q) (k := 16) hl
  simpa only [wp_bind, wp_pure, wp_ensure, Nat.zero_mul, Ptr.add_zero, BitVec.ofNat_eq_ofNat] using this

theorem check_hyphens_wp {m p} {xs : List Byte} (hx : HasBytes m p xs) (hl : xs.length = 36) {Q : Unit → Mem → Prop} {E} :
    wp (check_hyphens p) Q E m ↔ if dashes xs then Q () m else E m := by
  unfold check_hyphens dashes
  simp only [wp_bind, wp_rd_iff hx (show 8 < xs.length by omega), wp_rd_iff hx (show 13 < xs.length by omega),
    wp_rd_iff hx (show 18 < xs.length by omega), wp_rd_iff hx (show 23 < xs.length by omega), wp_ensure,
    ← List.getElem_eq_getD (h := (show 8 < xs.length by omega)), ← List.getElem_eq_getD (h := (show 13 < xs.length by omega)),
    ← List.getElem_eq_getD (h := (show 18 < xs.length by omega)), ← List.getElem_eq_getD (h := (show 23 < xs.length by omega))]
  rfl

theorem parse_hyphenated_loop_wp {p q : Ptr} : ∀ (gs : List (Nat × Byte × Byte × Byte × Byte)) (j : Nat) {m} {flag : Byte} {Q : Byte → Mem → Prop} {E},
    (∀ g ∈ gs, HasBytes m (p.add g.1) [g.2.1, g.2.2.1, g.2.2.2.1, g.2.2.2.2]) → CanWrite m (q.add (j * 2)) (2 * gs.length) →
    (∀ g ∈ gs, Apart (p.add g.1) (q.add (j * 2)) 4 (2 * gs.length)) →
    Q (orAll flag (gs.flatMap fun g => [g.2.1, g.2.2.1, g.2.2.2.1, g.2.2.2.2]))
      (m.write (q.add (j * 2)) (rawDec (gs.flatMap fun g => [g.2.1, g.2.2.1, g.2.2.2.1, g.2.2.2.2]))) →
    wp (parse_hyphenated_loop p q (gs.map (·.1)) j flag) Q E m := by
  intro gs
  induction gs with
  | nil =>
    intro j m flag Q E hs hw hd hQ
    simpa [parse_hyphenated_loop, rawDec, orAll] using hQ
  | cons g gs ih =>
    intro j m flag Q E hs hw hd hQ
    obtain ⟨i, a, b, c, d⟩ := g
    have hr := hs _ (List.mem_cons_self)
    simp only at hr
    unfold CanWrite at hw
    simp only [List.length_cons, Ptr.add_off, Ptr.add_buf] at hw
    have rr : ∀ (k : Nat) (hk : k < [a, b, c, d].length) {Q : Byte → Mem → Prop} {E}, wp (rd p (i + k)) Q E m ↔ Q ([a, b, c, d][k]) m := by
      intro k hk Q E; have := wp_rd_iff (i := k) (Q := Q) (E := E) hr hk; rw [← this]; simp only [rd, Ptr.add_add]
    have r0 : ∀ {Q : Byte → Mem → Prop} {E}, wp (rd p i) Q E m ↔ Q a m := fun {Q E} => rr 0 (by simp)
    have r1 : ∀ {Q : Byte → Mem → Prop} {E}, wp (rd p (i + 1)) Q E m ↔ Q b m := fun {Q E} => rr 1 (by simp)
    have r2 : ∀ {Q : Byte → Mem → Prop} {E}, wp (rd p (i + 2)) Q E m ↔ Q c m := fun {Q E} => rr 2 (by simp)
    have r3 : ∀ {Q : Byte → Mem → Prop} {E}, wp (rd p (i + 3)) Q E m ↔ Q d m := fun {Q E} => rr 3 (by simp)
    simp only [List.map_cons, parse_hyphenated_loop, wp_bind, r0, r1, r2, r3, wp_wrt, unhex, Mem.write_size]
    refine ⟨by omega, by omega, ?_⟩
    have e1 : rawDec [a, b, c, d] = [shl4 (parse_hex a) ||| parse_hex b, shl4 (parse_hex c) ||| parse_hex d] := by
      rw [show [a, b, c, d] = [a, b] ++ [c, d] from rfl, rawDec_append (by simp)]
      simp only [rawDec, List.map_cons, List.map_nil]
      rw [blocks_one (a := 2) (by omega) rfl, blocks_one (a := 2) (by omega) rfl]; rfl
    have hm : (m.write (q.add (j * 2)) [shl4 (parse_hex a) ||| parse_hex b]).write (q.add (j * 2 + 1)) [shl4 (parse_hex c) ||| parse_hex d] =
        m.write (q.add (j * 2)) (rawDec [a, b, c, d]) := by
      rw [e1, ← Ptr.add_add, Mem.write_append' m (q.add (j * 2)) [_] _ (n := 1) rfl]; rfl
    rw [hm]
    refine ih (j + 1) ?_ ?_ ?_ ?_
    · exact fun g hg => (hs g (List.mem_cons_of_mem _ hg)).write_apart (n := 2) ((hd g (List.mem_cons_of_mem _ hg)).mono (Nat.le_refl _) (by rw [List.length_cons]; omega))
        (by rw [rawDec_length]; simp)
    · unfold CanWrite; simp; omega
    · intro g hg
      have := (hd g (List.mem_cons_of_mem _ hg)).sub (c := 0) (d := 2) (a' := 4) (b' := 2 * gs.length) (by omega) (by rw [List.length_cons]; omega)
      rwa [Ptr.add_zero, Ptr.add_add, show j * 2 + 2 = (j + 1) * 2 by omega] at this
    · rw [show (j + 1) * 2 = j * 2 + 2 by omega, ← Ptr.add_add,
        Mem.write_append' m (q.add (j * 2)) _ _ (n := 2) (by rw [rawDec_length]; simp), ← rawDec_append (xs := [a, b, c, d]) (by simp)]
      have : ∀ zs, orAll (flag ||| (parse_hex a ||| parse_hex b ||| parse_hex c ||| parse_hex d)) zs = orAll flag ([a, b, c, d] ++ zs) := by
        intro zs; simp only [orAll, List.foldl_cons, List.cons_append, List.nil_append, BitVec.or_assoc]
      rw [this]
      exact hQ

/-- `digits` as the groups of four read by the scalar parser. -/
theorem digits_groups {xs : List Byte} (hl : xs.length = 36) : digits xs =
    (POSITIONS.map fun i => (i, xs.getD i 0, xs.getD (i + 1) 0, xs.getD (i + 2) 0, xs.getD (i + 3) 0)).flatMap
      fun g => [g.2.1, g.2.2.1, g.2.2.2.1, g.2.2.2.2] := by
  obtain ⟨f, rfl⟩ := list_map hl
  rfl

theorem hasBytes_four {m : Mem} {p : Ptr} {xs : List Byte} (hx : HasBytes m p xs) {i} (hi : i + 4 ≤ xs.length) :
    HasBytes m (p.add i) [xs.getD i 0, xs.getD (i + 1) 0, xs.getD (i + 2) 0, xs.getD (i + 3) 0] := by
  have := (hx.drop i (by omega)).take 4
  convert this using 1
  apply List.ext_getElem (by simp; omega)
  intro k h1 h2
  rw [List.getElem_take, List.getElem_drop]
  simp only [List.length_cons, List.length_nil] at h1
  interval_cases k <;> simp [show i < xs.length by omega, show i + 1 < xs.length by omega, show i + 2 < xs.length by omega, show i + 3 < xs.length by omega]

theorem does_hyp {α : Type} {r : α} {m : Mem} {p q : Ptr} {xs : List Byte} {f : Prog α} {n : Nat} (hx : HasBytes m p xs) (hl : xs.length = 36)
    (h : Does f r hexDec (digits xs) q n m) : Does (do check_hyphens p; f) r hypDec xs q n m := by
  unfold Does at h ⊢
  rw [wp_bind, check_hyphens_wp hx hl]
  split <;> rename_i hd
  · refine wp_mono h ?_ ?_
    · rintro a m' ⟨ha, ys, hy, hyl, hm⟩
      exact ⟨ha, ys, by rw [hypDec, if_pos hd]; exact hy, hyl, hm⟩
    · rintro m' ⟨hn, hs⟩
      exact ⟨by rw [hypDec, if_pos hd]; exact hn, hs⟩
  · exact ⟨by rw [hypDec, if_neg hd], SameOutside.refl⟩

theorem parse_hyphenated_fallback_spec {m p q} {xs : List Byte} (hx : HasBytes m p xs) (hl : xs.length = 36) (hw : CanWrite m q 16) (hd : Apart p q xs.length 16) :
    Does (parse_hyphenated_fallback p q) () hypDec xs q 16 m := by
  unfold parse_hyphenated_fallback
  refine does_hyp hx hl ?_
  unfold Does
  rw [wp_bind]
  have := parse_hyphenated_loop_wp (p := p) (q := q) (E := Fail hexDec (digits xs) q 16 m)
    (POSITIONS.map fun i => (i, xs.getD i 0, xs.getD (i + 1) 0, xs.getD (i + 2) 0, xs.getD (i + 3) 0)) 0 (m := m) (flag := 0)
    (Q := fun flag m' => wp (ensure (flag != 0xff)) (fun a m'' => a = () ∧ Post hexDec (digits xs) q 16 m m'') (Fail hexDec (digits xs) q 16 m) m') ?_ ?_ ?_ ?_
  · rw [List.map_map] at this
    exact this
  · intro g hg
    obtain ⟨i, hi, rfl⟩ := List.mem_map.1 hg
    refine hasBytes_four hx ?_
    simp [POSITIONS] at hi; omega
  · simpa [POSITIONS] using hw
  · intro g hg
    obtain ⟨i, hi, rfl⟩ := List.mem_map.1 hg
    exact hd.sub (by simp [POSITIONS] at hi; omega) (by simp [POSITIONS])
  · rw [← digits_groups hl]
    have := raw_does (r := ()) (m := m) (q := q) (k := 16) (digits_length hl)
    simpa only [wp_bind, wp_pure, wp_ensure, Nat.zero_mul, Ptr.add_zero, BitVec.ofNat_eq_ofNat] using this

/-! ### SIMD parsing -/

theorem decRes_does {s : Isa} {m q} {xs : List Byte} {x : V256} (hx : ∃ r, decode_ascii32 s x = some r ∧ DecRes xs r)
    (hw : CanWrite m q 16) : Does (do let y ← liftR (decode_ascii32 s x); v128_store s q y) () hexDec xs q 16 m := by
  obtain ⟨r, hr, hres⟩ := hx
  unfold Does
  rw [wp_bind, hr]
  cases r with
  | ok v =>
    simp only [wp_liftR_ok, wp_v128_store]
    exact ⟨hw, trivial, _, hres, by simp [Vec.toList], rfl⟩
  | error u =>
    simp only [wp_liftR_error]
    exact ⟨hres, SameOutside.refl⟩

theorem sse2_half {xs : List Byte} (hl : xs.length = 16) : ∃ n f y, sse2_decode_nibbles (.ofList xs) = some (n, f) ∧ sse2_merge_bits n = some y ∧
    ((anyLane 16 fun i => (f.lane i).msb) = true ↔ hexDec xs = none) ∧ ((anyLane 16 fun i => (f.lane i).msb) = false → hexDec xs = some y.toList) := by
  obtain ⟨n, f, hn, hf, hv⟩ := sse2_decode_nibbles_spec (.ofList xs)
  obtain ⟨v, hmv, hlane⟩ := sse2_merge_bits_spec n
  refine ⟨n, f, v, hn, hmv, ?_, ?_⟩
  · rw [anyLane_congr (fun i _ => hf i), any_invalid xs hl, hexDec, decB_none_iff]
  · rw [anyLane_congr (fun i _ => hf i)]
    intro hc
    have hall : ∀ c ∈ xs, parse_hex c ≠ 255#8 := by
      intro c hcm h255
      have := (any_invalid xs hl).2 ⟨c, hcm, h255⟩
      rw [this] at hc; simp at hc
    have hal : ∀ i, i < 16 → parse_hex (xs.getD i 0) ≠ 255#8 := by
      intro i hi
      rw [List.getD_eq_getElem?_getD, List.getElem?_eq_getElem (by omega)]
      exact hall _ (List.getElem_mem _)
    have hsm : ∀ i, i < 16 → n.lane i = parse_hex (xs.getD i 0) := by
      intro i hi
      have := hv i
      rw [Vec.ofList_lane] at this
      exact this (hal i hi)
    refine hexDec_eq_some v xs (by omega) hall ?_
    intro i hi
    rw [hlane i hi, hsm _ (by omega), hsm _ (by omega)]
    · rw [hsm _ (by omega)]; exact (parse_hex_cases _).resolve_left (hal _ (by omega))
    · rw [hsm _ (by omega)]; exact (parse_hex_cases _).resolve_left (hal _ (by omega))

theorem anyLane_or {n} (f g : Vec n) : (anyLane n fun i => ((Intrin.or f g).lane i).msb) =
    ((anyLane n fun i => (f.lane i).msb) || anyLane n fun i => (g.lane i).msb) := by
  rw [Bool.eq_iff_iff, Bool.or_eq_true, anyLane_iff, anyLane_iff, anyLane_iff]
  simp only [Intrin.or, map8_lane, BitVec.msb_or, Bool.or_eq_true]
  constructor
  · rintro ⟨i, hi, h | h⟩
    · exact .inl ⟨i, hi, h⟩
    · exact .inr ⟨i, hi, h⟩
  · rintro (⟨i, hi, h⟩ | ⟨i, hi, h⟩)
    · exact ⟨i, hi, .inl h⟩
    · exact ⟨i, hi, .inr h⟩

theorem parse_simple_sse2_spec {m p q} {xs : List Byte} (hx : HasBytes m p xs) (hl : xs.length = 32) (hw : CanWrite m q 16) :
    Does (parse_simple_simd_sse2 p q) () hexDec xs q 16 m := by
  have hb := hx.bound
  have ht : (xs.take 16).length = 16 := by rw [List.length_take]; omega
  have hdr : (xs.drop 16).length = 16 := by rw [List.length_drop]; omega
  obtain ⟨n1, f1, y1, e1, g1, hf1, hy1⟩ := sse2_half ht
  obtain ⟨n2, f2, y2, e2, g2, hf2, hy2⟩ := sse2_half hdr
  have happ := decApp (k := 16) xs (by omega) (by omega)
  rw [List.take_append_drop] at happ
  have hbm : ∀ f, u8x16_bitmask .sse2 f = some (movemask f) := by intro f; simp [u8x16_bitmask, Isa.is]
  unfold Does parse_simple_simd_sse2
  rw [wp_bind, wp_v128_load (hx.take 16) ht, wp_bind, wp_padd]
  refine ⟨by omega, ?_⟩
  rw [wp_bind, wp_v128_load (hx.drop 16 (by omega)) hdr, wp_bind, e1, wp_liftO_some]
  dsimp only
  rw [wp_bind, e2, wp_liftO_some]
  dsimp only
  rw [v128_or_eq]
  simp only [wp_bind, wp_liftO_some]
  rw [hbm, wp_liftO_some, wp_ensure, movemask_eq_zero, anyLane_or, g1, wp_liftO_some, g2, wp_liftO_some, wp_storeBytes]
  unfold CanWrite at hw
  split <;> rename_i hc
  · simp only [Bool.not_eq_true', Bool.or_eq_false_iff] at hc
    have hlen : (y1.toList ++ y2.toList).length = 16 := by rw [List.length_append, Vec.toList_length, Vec.toList_length]
    refine ⟨by rw [hlen]; exact hw, trivial, y1.toList ++ y2.toList, ?_, hlen, rfl⟩
    rw [happ, hy1 hc.1, hy2 hc.2]; rfl
  · refine ⟨?_, SameOutside.refl⟩
    rw [happ]
    simp only [Bool.not_eq_true', Bool.not_eq_false, Bool.or_eq_true] at hc
    cases h1 : hexDec (xs.take 16) with
    | none => rfl
    | some u =>
      rcases hc with hc | hc
      · rw [hf1.1 hc] at h1; cases h1
      · rw [hf2.1 hc]; rfl

theorem parse_simple_auto_spec (i : Option Isa) {m p q} {xs : List Byte} (hx : HasBytes m p xs) (hl : xs.length = 32) (hw : CanWrite m q 16)
    (hd : Apart p q xs.length 16) : Does (parse_simple_auto i p q) () hexDec xs q 16 m := by
  cases i with
  | none => exact parse_simple_fallback_spec hx hl hw hd
  | some s =>
    simp only [parse_simple_auto, parse_simple_simd]
    split <;> rename_i hs
    · exact parse_simple_sse2_spec hx hl hw
    · unfold Does
      rw [wp_bind, wp_v256_load hx hl]
      exact decRes_does (decode_ascii32_spec s hs xs hl) hw

theorem PARSE_SWIZZLE_idx : ∀ x ∈ ([0x00, 0x01, 0x02, 0x03, 0x04, 0x05, 0x06, 0x07, 0x09, 0x0a, 0x0b, 0x0c, 0x0e, 0x0f, 0x80, 0x80,
   0x03, 0x04, 0x05, 0x06, 0x08, 0x09, 0x0a, 0x0b, 0x0c, 0x0d, 0x0e, 0x0f, 0x80, 0x80, 0x80, 0x80] : List Byte), x.toNat < 16 ∨ 128 ≤ x.toNat := by decide

/-- Both lane insertions, on every instruction set that has them. -/
theorem set_lanes {s : Isa} (hs : s ≠ .sse2 ∧ s ≠ .ssse3) (a : V256) (u v : List Byte) : ∃ b c, i16x16_set_lane7 s a u = some b ∧ i32x8_set_lane7 s b v = some c ∧
    ∀ i, i < 32 → c.lane i = if 28 ≤ i then v.getD (i - 28) 0 else if 14 ≤ i ∧ i < 16 then u.getD (i - 14) 0 else a.lane i := by
  cases s <;> simp only [ne_eq, reduceCtorEq, not_true_eq_false, not_false_eq_true, and_self, and_false, false_and] at hs
  all_goals
    refine ⟨_, _, rfl, rfl, fun i hi => ?_⟩
    simp only [insertLane, join, Vec.lo, Vec.hi]
    interval_cases i <;> simp

theorem parse_hyphenated_simd_spec {s : Isa} (hs : s ≠ .sse2 ∧ s ≠ .ssse3) {m p q} {xs : List Byte} (hx : HasBytes m p xs) (hl : xs.length = 36) (hw : CanWrite m q 16) :
    Does (parse_hyphenated_simd s p q) () hypDec xs q 16 m := by
  have hb := hx.bound
  unfold parse_hyphenated_simd
  refine does_hyp hx hl ?_
  have h1 : HasBytes m (p.add 16) ((xs.drop 16).take 2) := (hx.drop 16 (by omega)).take 2
  have h2 : HasBytes m (p.add 32) ((xs.drop 32).take 4) := (hx.drop 32 (by omega)).take 4
  have e1 : ((xs.drop 16).take 2).length = 2 := by simp; omega
  have e2 : ((xs.drop 32).take 4).length = 4 := by simp; omega
  obtain ⟨b, c, hb', hc', hlane⟩ := set_lanes hs (shuffle_epi8 (.ofList (xs.take 32)) PARSE_SWIZZLE) ((xs.drop 16).take 2) ((xs.drop 32).take 4)
  have key := decRes_does (s := s) (m := m) (q := q) (x := c) (xs := digits xs) (decode_ascii32_lanes s hs.1 c (digits xs) (digits_length hl) ?_) hw
  · unfold Does at key ⊢
    rw [wp_bind, wp_v256_load (hx.take 32) (by simp; omega), show u8x16x2_swizzle s (.ofList (xs.take 32)) PARSE_SWIZZLE = _ from swz32 hs.1 _ PARSE_SWIZZLE_idx]
    change wp (do
      let a1 ← liftO (some (shuffle_epi8 (.ofList (xs.take 32)) PARSE_SWIZZLE))
      padd p 16
      let a2 ← liftO (i16x16_set_lane7 s a1 (← loadBytes (p.add 16) 2))
      padd p 32
      let a3 ← liftO (i32x8_set_lane7 s a2 (← loadBytes (p.add 32) 4))
      let ans ← liftR (decode_ascii32 s a3)
      v128_store s q ans) _ _ _
    simp only [wp_bind, wp_liftO_some, wp_padd, wp_loadBytes_iff h1 e1, hb', wp_loadBytes_iff h2 e2, hc'] at key ⊢
    exact ⟨by omega, by omega, key⟩
  · intro i hi
    rw [hlane i hi]
    clear hlane hb' hc' h1 h2 e1 e2 hx hw
    obtain ⟨f, rfl⟩ := list_map hl
    interval_cases i <;> rfl

/-- Implementations of the hyphenated functions that exist (`hyphenated_targets` are among them). -/
def HypImpl (i : Option Isa) : Prop := i ≠ some .sse2 ∧ i ≠ some .ssse3

theorem parse_hyphenated_auto_spec {i : Option Isa} (hi : HypImpl i) {m p q} {xs : List Byte} (hx : HasBytes m p xs) (hl : xs.length = 36) (hw : CanWrite m q 16)
    (hd : Apart p q xs.length 16) : Does (parse_hyphenated_auto i p q) () hypDec xs q 16 m := by
  cases i with
  | none => exact parse_hyphenated_fallback_spec hx hl hw hd
  | some s => exact parse_hyphenated_simd_spec ⟨fun h => hi.1 (by rw [h]), fun h => hi.2 (by rw [h])⟩ hx hl hw

/-! ### Scalar formatting -/

theorem encode_at_wp {m : Mem} {p q : Ptr} {i j : Nat} {case : AsciiCase} {x : Byte} {Q : Unit → Mem → Prop} {E} (hs : HasBytes m (p.add i) [x])
    (hw : CanWrite m (q.add j) 2) (h : Q () (m.write (q.add j) (hexEnc case [x]))) :
    wp (rd p i) (fun x m => wp (tread (charset case) (x >>> 4).toNat) (fun hi m => wp (tread (charset case) (x &&& 0x0f).toNat) (fun lo m =>
      wp (wrt q j hi) (fun _ m => wp (wrt q (j + 1) lo) Q E m) E m) E m) E m) E m := by
  have key := (encode_bits_wp (Q := Q) (E := E) (case := case) hs hw).2 h
  simpa only [encode_bits, wp_bind, rd, wrt, Ptr.add_add, Nat.add_zero] using key

theorem format_simple_loop_wp (case : AsciiCase) {p q : Ptr} : ∀ (k i : Nat) {m} {xs : List Byte} {Q : Unit → Mem → Prop} {E}, xs.length = k →
    HasBytes m (p.add i) xs → CanWrite m (q.add (i * 2)) (2 * k) → Apart (p.add i) (q.add (i * 2)) k (2 * k) → Q () (m.write (q.add (i * 2)) (hexEnc case xs)) →
    wp (forFrom (fun i => do
      let x ← rd p i
      let hi ← tread (charset case) (x >>> 4).toNat
      let lo ← tread (charset case) (x &&& 0x0f).toNat
      wrt q (i * 2) hi
      wrt q (i * 2 + 1) lo) i k) Q E m := by
  intro k
  induction k with
  | zero =>
    intro i m xs Q E hl hs hw hd hQ
    have : xs = [] := List.length_eq_zero_iff.1 hl
    subst this
    simpa [forFrom] using hQ
  | succ k ih =>
    intro i m xs Q E hl hs hw hd hQ
    match xs, hl with
    | x :: xs, hl =>
      have hb := hs.bound
      have hs' : HasBytes m (p.add i) ([x] ++ xs) := hs
      unfold CanWrite at hw
      simp only [List.length_cons, Ptr.add_off, Ptr.add_buf] at hl hb hw
      rw [forFrom]
      simp only [wp_bind]
      refine encode_at_wp hs'.left (by unfold CanWrite; simp; omega) ?_
      have hd' : Apart (p.add (i + 1)) (q.add ((i + 1) * 2)) k (2 * k) := by
        have := hd.sub (c := 1) (d := 2) (a' := k) (b' := 2 * k) (by omega) (by omega)
        rwa [Ptr.add_add, Ptr.add_add, show i * 2 + 2 = (i + 1) * 2 by omega] at this
      refine ih (i + 1) (xs := xs) (by omega) ?_ ?_ hd' ?_
      · have := hs'.right.write_apart (q := q.add (i * 2)) (n := 2) (by have := hd.sub (c := 1) (d := 0) (a' := xs.length) (b' := 2) (by omega) (by omega); rwa [Ptr.add_zero] at this) (zs := hexEnc case [x]) (by simp [hexEnc_length])
        rwa [Ptr.add_add] at this
      · unfold CanWrite; simp; omega
      · rw [show (i + 1) * 2 = i * 2 + 2 by omega, ← Ptr.add_add, Mem.write_append' m _ _ _ (n := 2) (by simp [hexEnc_length]), ← hexEnc_append]
        exact hQ

theorem format_simple_fallback_spec (case : AsciiCase) {m p q} {xs : List Byte} (hx : HasBytes m p xs) (hl : xs.length = 16) (hw : CanWrite m q 32)
    (hd : Apart p q xs.length 32) : Does (format_simple_fallback p q case) () (encS case) xs q 32 m := by
  exact format_simple_loop_wp case 16 0 hl hx hw (by simpa [hl] using hd) ⟨rfl, _, rfl, by rw [hexEnc_length]; omega, rfl⟩

theorem format_group_wp (case : AsciiCase) {p q : Ptr} : ∀ (k i j : Nat) {m} {xs : List Byte} {Q : Nat → Mem → Prop} {E}, xs.length = k →
    HasBytes m (p.add i) xs → CanWrite m (q.add j) (2 * k) → Apart (p.add i) (q.add j) k (2 * k) → Q (i + k) (m.write (q.add j) (hexEnc case xs)) →
    wp (format_group (charset case) p q i j (j + 2 * k)) Q E m := by
  intro k
  induction k with
  | zero =>
    intro i j m xs Q E hl hs hw hd hQ
    have : xs = [] := List.length_eq_zero_iff.1 hl
    subst this
    rw [format_group, if_neg (by omega)]
    simpa using hQ
  | succ k ih =>
    intro i j m xs Q E hl hs hw hd hQ
    match xs, hl with
    | x :: xs, hl =>
      have hb := hs.bound
      have hs' : HasBytes m (p.add i) ([x] ++ xs) := hs
      unfold CanWrite at hw
      simp only [List.length_cons, Ptr.add_off, Ptr.add_buf] at hl hb hw
      rw [format_group, if_pos (by omega)]
      simp only [wp_bind]
      refine encode_at_wp hs'.left (by unfold CanWrite; simp; omega) ?_
      rw [show j + 2 * (k + 1) = j + 2 + 2 * k by omega]
      have hd' : Apart (p.add (i + 1)) (q.add (j + 2)) k (2 * k) := by
        have := hd.sub (c := 1) (d := 2) (a' := k) (b' := 2 * k) (by omega) (by omega)
        rwa [Ptr.add_add, Ptr.add_add] at this
      refine ih (i + 1) (j + 2) (xs := xs) (by omega) ?_ ?_ hd' ?_
      · have := hs'.right.write_apart (q := q.add j) (n := 2) (by have := hd.sub (c := 1) (d := 0) (a' := xs.length) (b' := 2) (by omega) (by omega); rwa [Ptr.add_zero] at this) (zs := hexEnc case [x]) (by simp [hexEnc_length])
        rwa [Ptr.add_add] at this
      · unfold CanWrite; simp; omega
      · rw [← Ptr.add_add, Mem.write_append' m _ _ _ (n := 2) (by simp [hexEnc_length]), ← hexEnc_append, show i + 1 + k = i + (k + 1) by omega]
        exact hQ

theorem hexEnc_take_drop (case) (xs : List Byte) (i k : Nat) (h : i + k ≤ xs.length) :
    hexEnc case ((xs.drop i).take k) = ((hexEnc case xs).drop (2 * i)).take (2 * k) := by
  have h1 : hexEnc case xs = hexEnc case (xs.take i) ++ (hexEnc case ((xs.drop i).take k) ++ hexEnc case ((xs.drop i).drop k)) := by
    rw [← hexEnc_append, ← hexEnc_append, List.take_append_drop, List.take_append_drop]
  rw [h1, List.drop_append_of_le_length (by rw [hexEnc_length, List.length_take]; omega), List.drop_eq_nil_of_le (as := hexEnc case (xs.take i)) (by rw [hexEnc_length, List.length_take]; omega),
    List.nil_append, List.take_append_of_le_length (by rw [hexEnc_length, List.length_take, List.length_drop]; omega),
    List.take_of_length_le (l := hexEnc case _) (by rw [hexEnc_length, List.length_take, List.length_drop]; omega)]

/-- One group followed by its hyphen. -/
theorem format_groups_step (case : AsciiCase) {p q : Ptr} {xs : List Byte} (hd : Apart p q xs.length 36) (k i j g : Nat) (hg : g < 4) (gs) {m} {Q : Unit → Mem → Prop} {E}
    (hs : HasBytes m p xs) (hw : CanWrite m q 36) (hi : i + k ≤ xs.length) (hj : j + 2 * k + 1 ≤ 36)
    (hQ : wp (format_groups (charset case) p q gs (g + 1) (i + k)) Q E (m.write (q.add j) (((hexEnc case xs).drop (2 * i)).take (2 * k) ++ [0x2d#8]))) :
    wp (format_groups (charset case) p q ((j, j + 2 * k) :: gs) g i) Q E m := by
  unfold CanWrite at hw
  rw [format_groups, wp_bind]
  refine format_group_wp case k i j (xs := (xs.drop i).take k) (by rw [List.length_take, List.length_drop]; omega) ((hs.drop i (by omega)).take k)
    (by unfold CanWrite; simp; omega) (hd.sub (by omega) (by omega)) ?_
  simp only [if_pos hg]
  rw [wp_bind, wp_wrt, Mem.write_size]
  refine ⟨by omega, ?_⟩
  rw [hexEnc_take_drop case xs i k hi, ← Ptr.add_add, Mem.write_append' m _ _ _ (n := 2 * k) (by rw [List.length_take, List.length_drop, hexEnc_length]; omega)]
  exact hQ

theorem format_hyphenated_fallback_spec (case : AsciiCase) {m p q} {xs : List Byte} (hx : HasBytes m p xs) (hl : xs.length = 16) (hw : CanWrite m q 36)
    (hd : Apart p q xs.length 36) : Does (format_hyphenated_fallback p q case) () (hypEncS case) xs q 36 m := by
  have hE : (hexEnc case xs).length = 32 := by rw [hexEnc_length]; omega
  have hx' : ∀ {m' : Mem} (j : Nat) (ys : List Byte), j + ys.length ≤ 36 → HasBytes m' p xs → HasBytes (m'.write (q.add j) ys) p xs :=
    fun j ys hj h => h.write_apart (n := ys.length) (by have := hd.sub (c := 0) (d := j) (a' := xs.length) (b' := ys.length) (by omega) hj; rwa [Ptr.add_zero] at this) (Nat.le_refl _)
  have hw' : ∀ {m' : Mem} (r : Ptr) (ys : List Byte), CanWrite m' q 36 → CanWrite (m'.write r ys) q 36 := fun r ys h => h
  unfold Does format_hyphenated_fallback GROUPS
  refine format_groups_step case hd 4 0 0 0 (by omega) _ hx hw (by omega) (by omega) ?_
  refine format_groups_step case hd 2 4 9 1 (by omega) _ (hx' _ _ (by simp [hE]) hx) hw (by omega) (by omega) ?_
  refine format_groups_step case hd 2 6 14 2 (by omega) _ (hx' _ _ (by simp [hE]) (hx' _ _ (by simp [hE]) hx)) hw (by omega) (by omega) ?_
  refine format_groups_step case hd 2 8 19 3 (by omega) _ (hx' _ _ (by simp [hE]) (hx' _ _ (by simp [hE]) (hx' _ _ (by simp [hE]) hx))) hw (by omega) (by omega) ?_
  rw [format_groups, wp_bind]
  unfold CanWrite at hw
  refine format_group_wp case 6 10 24 (xs := (xs.drop 10).take 6) (by rw [List.length_take, List.length_drop]; omega)
    (((hx' 19 _ (by simp [hE]) (hx' 14 _ (by simp [hE]) (hx' 9 _ (by simp [hE]) (hx' 0 _ (by simp [hE]) hx)))).drop 10 (by omega)).take 6) (by unfold CanWrite; simp; omega) (hd.sub (by omega) (by omega)) ?_
  simp only [format_groups, Nat.reduceAdd, Nat.lt_irrefl, if_false, wp_pure]
  rw [hexEnc_take_drop case xs 10 6 (by omega)]
  refine ⟨trivial, _, rfl, by simp [hyph, hE], ?_⟩
  have e : ∀ {m' : Mem} (n k : Nat) (a b : List Byte), a.length = k → (m'.write (q.add n) a).write (q.add (n + k)) b = m'.write (q.add n) (a ++ b) := by
    intro m' n k a b h; rw [← Ptr.add_add, Mem.write_append' m' (q.add n) a b h]
  generalize hexEnc case xs = t at hE ⊢
  rw [e 0 9 _ _ (by simp [hE]), e 0 14 _ _ (by simp [hE]), e 0 19 _ _ (by simp [hE]), e 0 24 _ _ (by simp [hE])]
  rw [Ptr.add_zero]
  congr 1
  obtain ⟨f, rfl⟩ := list_map hE
  rfl

/-! ### SIMD formatting -/

theorem format_simple_auto_spec (i : Option Isa) (case : AsciiCase) {m p q} {xs : List Byte} (hx : HasBytes m p xs) (hl : xs.length = 16) (hw : CanWrite m q 32)
    (hd : Apart p q xs.length 32) : Does (format_simple_auto i p q case) () (encS case) xs q 32 m := by
  cases i with
  | none => exact format_simple_fallback_spec case hx hl hw hd
  | some s =>
    simp only [format_simple_auto, format_simple_simd]
    split <;> rename_i hs
    · obtain ⟨v1, v2, hv, hvl⟩ := sse2_encode16_spec case xs hl
      unfold Does format_simple_simd_sse2
      unfold CanWrite at hw
      rw [wp_bind, wp_v128_load hx hl, wp_bind, hv, wp_liftO_some]
      simp only [wp_bind, wp_v128_store, wp_padd, Mem.write_size, Ptr.add_off, Ptr.add_buf]
      refine ⟨by omega, by omega, by omega, trivial, _, rfl, by rw [hexEnc_length]; omega, ?_⟩
      rw [Mem.write_append' m q _ _ (n := 16) (Vec.toList_length v1), hvl]
    · have := encode16_step hs (case := case) (f := fun _ => pure ()) (Q := fun a m' => a = () ∧ Post (encS case) xs q 32 m m') (E := Fail (encS case) xs q 32 m) hx hl hw
        ⟨rfl, _, rfl, by rw [hexEnc_length]; omega, rfl⟩
      unfold Does
      simpa only [wp_bind, wp_pure] using this

theorem FORMAT_SWIZZLE_idx : ∀ x ∈ ([0x00, 0x01, 0x02, 0x03, 0x04, 0x05, 0x06, 0x07, 0x80, 0x08, 0x09, 0x0a, 0x0b, 0x80, 0x0c, 0x0d,
   0x80, 0x80, 0x80, 0x00, 0x01, 0x02, 0x03, 0x80, 0x04, 0x05, 0x06, 0x07, 0x08, 0x09, 0x0a, 0x0b] : List Byte), x.toNat < 16 ∨ 128 ≤ x.toNat := by decide

theorem get_lanes {s : Isa} (hs : s ≠ .sse2 ∧ s ≠ .ssse3) (a : V256) : i16x8_get_lane7 s a.lo = some [a.lane 14, a.lane 15] ∧
    i32x4_get_lane3 s a.hi = some [a.lane 28, a.lane 29, a.lane 30, a.lane 31] := by
  cases s <;> simp only [ne_eq, reduceCtorEq, not_true_eq_false, not_false_eq_true, and_self, and_false, false_and] at hs
  all_goals exact ⟨rfl, rfl⟩

theorem write_patch (m : Mem) (q : Ptr) (a j c b : List Byte) {n : Nat} (hn : a.length = n) (h : b.length = j.length) :
    (m.write q (a ++ (j ++ c))).write (q.add n) b = m.write q (a ++ (b ++ c)) := by
  subst hn
  refine Mem.ext' rfl rfl fun b' i => ?_
  simp only [Mem.write_cell, Ptr.add_buf, Ptr.add_off, List.length_append, h]
  by_cases hb : b' = q.buf
  · subst hb
    by_cases h1 : q.off + a.length ≤ i ∧ i < q.off + a.length + j.length
    · rw [if_pos ⟨rfl, h1.1, h1.2⟩, if_pos ⟨rfl, by omega, by omega⟩, List.getElem?_append_right (by omega), List.getElem?_append_left (by omega)]
      congr 1; omega
    · rw [if_neg (fun h => h1 h.2)]
      by_cases h2 : q.off ≤ i ∧ i < q.off + (a.length + (j.length + c.length))
      · rw [if_pos ⟨rfl, h2.1, h2.2⟩, if_pos ⟨rfl, h2.1, h2.2⟩]
        by_cases h3 : i < q.off + a.length
        · rw [List.getElem?_append_left (by omega), List.getElem?_append_left (by omega)]
        · rw [List.getElem?_append_right (by omega), List.getElem?_append_right (by omega), List.getElem?_append_right (by omega), List.getElem?_append_right (by omega), h]
      · rw [if_neg (fun h => h2 h.2), if_neg (fun h => h2 h.2)]
  · simp [hb]

theorem format_hyphenated_simd_spec {s : Isa} (hs : s ≠ .sse2 ∧ s ≠ .ssse3) (case : AsciiCase) {m p q} {xs : List Byte} (hx : HasBytes m p xs) (hl : xs.length = 16)
    (hw : CanWrite m q 36) : Does (format_hyphenated_simd s p q case) () (hypEncS case) xs q 36 m := by
  obtain ⟨v, hv, hvl⟩ := encode_bytes16_spec s hs.1 case xs hl
  obtain ⟨g1, g2⟩ := get_lanes hs v
  have hE : (hexEnc case xs).length = 32 := by rw [hexEnc_length]; omega
  unfold CanWrite at hw
  unfold Does format_hyphenated_simd
  rw [wp_bind, wp_v128_load hx hl, wp_bind, hv, wp_liftO_some, wp_bind,
    show u8x16x2_swizzle s v FORMAT_SWIZZLE = some (shuffle_epi8 v FORMAT_SWIZZLE) from swz32 hs.1 _ FORMAT_SWIZZLE_idx, wp_liftO_some, wp_bind, v256_or_eq, wp_liftO_some,
    wp_bind, wp_v256_store, g1, g2]
  refine ⟨by omega, ?_⟩
  simp only [wp_bind, wp_liftO_some, wp_padd, wp_storeBytes, Mem.write_size, Ptr.add_off, Ptr.add_buf, List.length_cons, List.length_nil]
  refine ⟨by omega, by omega, by omega, by omega, trivial, _, rfl, by simp [hyph, hE], ?_⟩
  rw [← hvl]
  obtain ⟨f⟩ := v
  have hW : (Intrin.or (shuffle_epi8 (⟨f⟩ : V256) FORMAT_SWIZZLE) DASH).toList =
      [f 0, f 1, f 2, f 3, f 4, f 5, f 6, f 7, 0x2d#8, f 8, f 9, f 10, f 11, 0x2d#8, f 12, f 13] ++ ([0, 0] ++
        [0x2d#8, f 16, f 17, f 18, f 19, 0x2d#8, f 20, f 21, f 22, f 23, f 24, f 25, f 26, f 27]) := by
    rw [Vec.toList, show List.range 32 = [0, 1, 2, 3, 4, 5, 6, 7, 8, 9, 10, 11, 12, 13, 14, 15, 16, 17, 18, 19, 20, 21, 22, 23, 24, 25, 26, 27, 28, 29, 30, 31] from rfl]
    simp [Intrin.or, map8_lane, shuffle_lane, FORMAT_SWIZZLE, DASH]
  rw [hW, write_patch m q _ [0, 0] _ [f 14, f 15] (n := 16) rfl rfl, Mem.write_append' _ _ _ _ (n := 32) rfl]
  rfl

theorem format_hyphenated_auto_spec {i : Option Isa} (hi : HypImpl i) (case : AsciiCase) {m p q} {xs : List Byte} (hx : HasBytes m p xs) (hl : xs.length = 16)
    (hw : CanWrite m q 36) (hd : Apart p q xs.length 36) : Does (format_hyphenated_auto i p q case) () (hypEncS case) xs q 36 m := by
  cases i with
  | none => exact format_hyphenated_fallback_spec case hx hl hw hd
  | some s => exact format_hyphenated_simd_spec ⟨fun h => hi.1 (by rw [h]), fun h => hi.2 (by rw [h])⟩ case hx hl hw

end Simd.Uuid
