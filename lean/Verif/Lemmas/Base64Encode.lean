import Verif.Lemmas.Base64Kernel
import Verif.Lemmas.Scalar
import Verif.Lemmas.Countdown
/-
Every implementation of base64 encoding writes `enc64`.
-/
namespace Simd.Base64
open Vs IsaId Intrin

/-- `enc64` as a total function. -/
def encS (kind : Kind) (pad : Bool) (xs : List Byte) : Option (List Byte) := some (enc64 (chr kind) pad xs)

theorem encS_nil (kind pad) : encS kind pad [] = some [] := by simp [encS]
theorem encS_append (kind pad) {xs ys : List Byte} (h : xs.length % 3 = 0) :
    encS kind pad (xs ++ ys) = (encS kind pad xs).bind fun u => (encS kind pad ys).map (u ++ ·) := by
  simp [encS, enc64_app _ _ h]

theorem encLen_step (pad : Bool) (k n : Nat) (h : 3 * k ≤ n) : encLen pad n = 4 * k + encLen pad (n - 3 * k) := by
  unfold encLen
  rw [show (n - 3 * k) % 3 = n % 3 by omega, show (n - 3 * k) / 3 = n / 3 - k by omega]
  split
  · omega
  · split <;> omega

theorem charset_length (kind) : (charset kind).length = 64 := by cases kind <;> rfl

theorem encode_bits24_wp {m p q kind pad} {xs : List Byte} {Q : Unit → Mem → Prop} {E} (hs : HasBytes m p xs) (hl : xs.length = 3)
    (hw : CanWrite m q 4) :
    wp (encode_bits24 p q (charset kind)) Q E m ↔ Q () (m.write q (enc64 (chr kind) pad xs)) := by
  match xs, hl with
  | [a, b, c], _ =>
    have ha := a.isLt; have hb := b.isLt; have hc := c.isLt
    simp only [encode_bits24, wp_bind, wp_rd_iff hs (show 0 < [a, b, c].length by simp), wp_rd_iff hs (show 1 < [a, b, c].length by simp),
      wp_rd_iff hs (show 2 < [a, b, c].length by simp), List.getElem_cons_zero, List.getElem_cons_succ]
    have hx : (ofBE 32 [0, a, b, c]).toNat = a.toNat * 65536 + b.toNat * 256 + c.toNat := by
      rw [ofBE_toNat _ (by simp)]
      simp only [beNat, List.foldl_cons, List.foldl_nil, BitVec.ofNat_eq_ofNat, BitVec.toNat_ofNat]; omega
    have hi : ∀ i, ((ofBE 32 [0, a, b, c] >>> (18 - i * 6)) &&& 0x3f#32).toNat = (a.toNat * 65536 + b.toNat * 256 + c.toNat) / 2 ^ (18 - i * 6) % 64 := by
      intro i; rw [shr_and _ _ _ 6 rfl, hx]; rfl
    have := write_loop_wp (charset kind) (fun i => ((ofBE 32 [0, a, b, c] >>> (18 - i * 6)) &&& 0x3f#32).toNat) (q := q) (E := E) 4 0 (m := m) (Q := Q)
      (fun k _ => by rw [charset_length, hi]; omega) (by simpa using hw)
    refine this.trans ?_
    rw [show (List.range' 0 4) = [0, 1, 2, 3] from rfl]
    simp only [List.map_cons, List.map_nil, hi, enc64, encG, List.getD_cons_zero, List.getD_cons_succ, List.append_nil, chr, Ptr.add_zero,
      Nat.reduceMul, Nat.reduceSub, Nat.reducePow]
    rw [show (a.toNat * 65536 + b.toNat * 256 + c.toNat) / 262144 % 64 = a.toNat / 4 by omega,
      show (a.toNat * 65536 + b.toNat * 256 + c.toNat) / 4096 % 64 = a.toNat % 4 * 16 + b.toNat / 16 by omega,
      show (a.toNat * 65536 + b.toNat * 256 + c.toNat) / 64 % 64 = b.toNat % 16 * 4 + c.toNat / 64 by omega,
      show (a.toNat * 65536 + b.toNat * 256 + c.toNat) / 1 % 64 = c.toNat % 64 by omega]

theorem encode_bits48_wp {m p q kind pad} {xs : List Byte} {Q : Unit → Mem → Prop} {E} (hs : HasBytes m p xs) (hl : 8 ≤ xs.length)
    (hw : CanWrite m q 8) :
    wp (encode_bits48 p q (charset kind)) Q E m ↔ Q () (m.write q (enc64 (chr kind) pad (xs.take 6))) := by
  match xs, hl with
  | a :: b :: c :: d :: e :: f :: g :: h :: r, _ =>
    have ha := a.isLt; have hb := b.isLt; have hc := c.isLt; have hd := d.isLt; have he := e.isLt; have hf := f.isLt; have hg := g.isLt; have hh := h.isLt
    simp only [encode_bits48, wp_bind]
    rw [wp_loadBytes_iff (hs.take 8) (by simp)]
    rw [show List.take 8 (a :: b :: c :: d :: e :: f :: g :: h :: r) = [a, b, c, d, e, f, g, h] from rfl]
    have hx : (ofBE 64 [a, b, c, d, e, f, g, h]).toNat = a.toNat * 2 ^ 56 + b.toNat * 2 ^ 48 + c.toNat * 2 ^ 40 + d.toNat * 2 ^ 32 + e.toNat * 2 ^ 24 +
        f.toNat * 2 ^ 16 + g.toNat * 2 ^ 8 + h.toNat := by
      rw [ofBE_toNat _ (by simp)]
      simp only [beNat, List.foldl_cons, List.foldl_nil]; omega
    have hi : ∀ i, ((ofBE 64 [a, b, c, d, e, f, g, h] >>> (58 - i * 6)) &&& 0x3f#64).toNat = (a.toNat * 2 ^ 56 + b.toNat * 2 ^ 48 + c.toNat * 2 ^ 40 + d.toNat * 2 ^ 32 + e.toNat * 2 ^ 24 +
        f.toNat * 2 ^ 16 + g.toNat * 2 ^ 8 + h.toNat) / 2 ^ (58 - i * 6) % 64 := by
      intro i; rw [shr_and _ _ _ 6 rfl, hx]; rfl
    have := write_loop_wp (charset kind) (fun i => ((ofBE 64 [a, b, c, d, e, f, g, h] >>> (58 - i * 6)) &&& 0x3f#64).toNat) (q := q) (E := E) 8 0 (m := m) (Q := Q)
      (fun k _ => by rw [charset_length, hi]; omega) (by simpa using hw)
    refine this.trans ?_
    rw [show (List.range' 0 8) = [0, 1, 2, 3, 4, 5, 6, 7] from rfl]
    simp only [List.map_cons, List.map_nil, hi, List.take_succ_cons, List.take_zero, enc64, encG, List.getD_cons_zero, List.getD_cons_succ, List.cons_append, List.nil_append,
      List.append_nil, chr, Ptr.add_zero, Nat.reduceMul, Nat.reduceSub, Nat.reducePow]
    generalize a.toNat = a at *
    generalize b.toNat = b at *
    generalize c.toNat = c at *
    generalize d.toNat = d at *
    generalize e.toNat = e at *
    generalize f.toNat = f at *
    generalize g.toNat = g at *
    generalize h.toNat = h at *
    clear hi hx this
    generalize hX : (a * 72057594037927936 + b * 281474976710656 + c * 1099511627776 + d * 4294967296 + e * 16777216 + f * 65536 + g * 256 + h) = X
    rw [show X / 288230376151711744 % 64 = a / 4 by omega, show X / 4503599627370496 % 64 = a % 4 * 16 + b / 16 by omega,
      show X / 70368744177664 % 64 = b % 16 * 4 + c / 64 by omega, show X / 1099511627776 % 64 = c % 64 by omega,
      show X / 17179869184 % 64 = d / 4 by omega, show X / 268435456 % 64 = d % 4 * 16 + e / 16 by omega,
      show X / 4194304 % 64 = e % 16 * 4 + f / 64 by omega, show X / 65536 % 64 = f % 64 by omega]

theorem encode_extra_spec {m p q kind pad} {xs : List Byte} {k : Nat} (hs : HasBytes m p xs) (hl : xs.length = k) (hk : k < 3)
    (hw : CanWrite m q (encLen pad k)) :
    Does (encode_extra k p q (charset kind) pad) () (encS kind pad) xs q (encLen pad k) m := by
  unfold CanWrite at hw
  have shr2 : ∀ x : Byte, (x >>> 2).toNat = x.toNat / 4 := by decide +kernel
  have shl62 : ∀ x : Byte, ((x <<< 6) >>> 2).toNat = x.toNat % 4 * 16 := by decide +kernel
  have shl42 : ∀ x : Byte, ((x <<< 4) >>> 2).toNat = x.toNat % 16 * 4 := by decide +kernel
  have shr4 : ∀ x : Byte, (x >>> 4).toNat = x.toNat / 16 := by decide +kernel
  match k, xs, hl with
  | 0, [], _ => exact Does.pure (encS_nil _ _)
  | 1, [a], _ =>
    have ha := a.isLt
    have hc := charset_length kind
    unfold Does
    simp only [encode_extra, wp_bind, wp_rd_iff hs (show 0 < [a].length by simp), List.getElem_cons_zero,
      wp_tread_of (shr2 a) (show _ < (charset kind).length by omega), wp_tread_of (shl62 a) (show _ < (charset kind).length by omega),
      wp_wrt, Ptr.add_zero, Mem.write_size]
    cases pad
    · simp [encLen] at hw
      refine ⟨by omega, by omega, trivial, _, rfl, by simp [enc64_length], ?_⟩
      rw [Mem.write_append' m q [_] [_] (n := 1) rfl]; rfl
    · simp [encLen] at hw
      simp only [if_true, wp_bind, wp_wrt, Mem.write_size]
      refine ⟨by omega, by omega, by omega, by omega, trivial, _, rfl, by simp [enc64_length], ?_⟩
      rw [Mem.write_append' m q [_] [_] (n := 1) rfl]
      simp only [List.cons_append, List.nil_append]
      rw [Mem.write_append' m q [_, _] [_] (n := 2) rfl]
      simp only [List.cons_append, List.nil_append]
      rw [Mem.write_append' m q [_, _, _] [_] (n := 3) rfl]; rfl
  | 2, [a, b], _ =>
    have ha := a.isLt
    have hb := b.isLt
    have hc := charset_length kind
    have hor : (((a <<< 6) >>> 2) ||| (b >>> 4)).toNat = a.toNat % 4 * 16 + b.toNat / 16 := by
      rw [or_add (c := a.toNat % 4) (k := 4) _ _ (by rw [shl62]; rfl) (by rw [shr4]; omega), shl62, shr4]
    unfold Does
    simp only [encode_extra, wp_bind, wp_rd_iff hs (show 0 < [a, b].length by simp), wp_rd_iff hs (show 1 < [a, b].length by simp),
      List.getElem_cons_zero, List.getElem_cons_succ, wp_tread_of (shr2 a) (show _ < (charset kind).length by omega),
      wp_tread_of hor (show _ < (charset kind).length by omega), wp_tread_of (shl42 b) (show _ < (charset kind).length by omega),
      wp_wrt, Ptr.add_zero, Mem.write_size]
    cases pad
    · simp [encLen] at hw
      refine ⟨by omega, by omega, by omega, trivial, _, rfl, by simp [enc64_length], ?_⟩
      rw [Mem.write_append' m q [_] [_] (n := 1) rfl]
      simp only [List.cons_append, List.nil_append]
      rw [Mem.write_append' m q [_, _] [_] (n := 2) rfl]; rfl
    · simp [encLen] at hw
      simp only [if_true, wp_wrt, Mem.write_size]
      refine ⟨by omega, by omega, by omega, by omega, trivial, _, rfl, by simp [enc64_length], ?_⟩
      rw [Mem.write_append' m q [_] [_] (n := 1) rfl]
      simp only [List.cons_append, List.nil_append]
      rw [Mem.write_append' m q [_, _] [_] (n := 2) rfl]
      simp only [List.cons_append, List.nil_append]
      rw [Mem.write_append' m q [_, _, _] [_] (n := 3) rfl]; rfl

/-- What is left after the unrolled loops. -/
theorem encode_tail_spec {m p q kind pad} {xs : List Byte} {n : Nat} (hs : HasBytes m p xs) (hl : xs.length = n)
    (hw : CanWrite m q (encLen pad n)) (hd : Apart p q n (encLen pad n)) :
    Does (do
      padd p (n / 3 * 3)
      let (src, dst) ← encode_loop3 (charset kind) (p.off + n / 3 * 3) p q
      encode_extra (n % 3) src dst (charset kind) pad) () (encS kind pad) xs q (encLen pad n) m := by
  have hb := hs.bound
  unfold CanWrite at hw
  have he := encLen_step pad (n / 3) n (by omega)
  rw [show n - 3 * (n / 3) = n % 3 by omega] at he
  refine Does.padd (by omega) ?_
  rw [show n / 3 * 3 = 3 * (n / 3) by omega]
  refine Does.seqS (k := 3 * (n / 3)) (n1 := 4 * (n / 3)) (n2 := encLen pad (n % 3)) hs (by omega) hw he (by unfold Apart at hd; omega)
    (encS_append _ _ (by rw [List.length_take]; omega))
    (loop_specS (F := fun e p q => encode_loop3 (charset kind) e p q) (ret := fun p q => (p, q)) (a := 3) (b := 4) (by omega)
      (fun e p q h => by rw [encode_loop3, if_neg h]) (encS_nil kind pad) (fun xs ys h => encS_append kind pad (by omega))
      (by
        intro e m p q xs Q E he hl hs hw _ hk _
        have hb := hs.bound
        unfold CanWrite at hw
        rw [encode_loop3, if_pos he, wp_bind, encode_bits24_wp (pad := pad) hs hl hw]
        simp only [wp_bind, wp_padd, Mem.write_size]
        exact ⟨by omega, by omega, hk _ rfl (by simp [enc64_length, hl, encLen])⟩)
      (n / 3) m p q _ (by rw [List.length_take]; omega) (hs.take _) (by unfold CanWrite; omega) (by unfold Apart at hd; unfold Safe; omega)) ?_
  intro m' hs' hw' _
  exact encode_extra_spec hs' (by rw [List.length_drop]; omega) (by omega) hw'

/-- One 6-byte step of an unrolled loop. -/
theorem encode_step6 {m p q kind pad} {xs : List Byte} {α : Type} {f : Prog α} {Q : α → Mem → Prop} {E} (hs : HasBytes m p xs) (hl : 8 ≤ xs.length)
    (hw : CanWrite m q 8) (hk : wp f Q E (m.write q (enc64 (chr kind) pad (xs.take 6)))) :
    wp (do
      encode_bits48 p q (charset kind)
      padd p 6
      padd q 8
      f) Q E m := by
  have hb := hs.bound
  unfold CanWrite at hw
  rw [wp_bind, encode_bits48_wp (pad := pad) hs hl hw]
  simp only [wp_bind, wp_padd, Mem.write_size]
  exact ⟨by omega, by omega, hk⟩

theorem encode_inner_wp (kind pad) : ∀ {k m p q} {xs : List Byte} {Q : Ptr × Ptr → Mem → Prop} {E}, 6 * k + 2 ≤ xs.length → HasBytes m p xs →
    CanWrite m q (8 * k) → Apart p q xs.length (8 * k) → Q (p.add (6 * k), q.add (8 * k)) (m.write q (enc64 (chr kind) pad (xs.take (6 * k)))) →
    wp (encode_inner (charset kind) k p q) Q E m := by
  intro k
  induction k with
  | zero =>
    intro m p q xs Q E hl hs hw hd hQ
    simpa [encode_inner] using hQ
  | succ k ih =>
    intro m p q xs Q E hl hs hw hd hQ
    unfold CanWrite at hw
    rw [encode_inner]
    refine encode_step6 (q := q) (pad := pad) hs (by omega) (by unfold CanWrite; omega) ?_
    refine ih (xs := xs.drop 6) (by simp; omega) ((hs.write_apart hd (by rw [enc64_length, List.length_take, show min 6 xs.length = 6 by omega]; cases pad <;> simp [encLen])).drop 6 (by omega)) (by unfold CanWrite; simp; omega)
      (hd.sub (by simp; omega) (by omega)) ?_
    have e : xs.take (6 * (k + 1)) = xs.take 6 ++ (xs.drop 6).take (6 * k) := by
      rw [show 6 * (k + 1) = 6 + 6 * k by omega, List.take_add]
    rw [Mem.write_append' m q _ _ (by rw [enc64_length, List.length_take, show min 6 xs.length = 6 by omega]; cases pad <;> rfl),
      ← enc64_app _ _ (by rw [List.length_take, show min 6 xs.length = 6 by omega]), ← e]
    simpa [Nat.mul_succ, Nat.add_comm] using hQ

theorem encode_fallback_spec {m p q config} {xs : List Byte} {n : Nat} (hs : HasBytes m p xs) (hl : xs.length = n)
    (hw : CanWrite m q (encLen config.extra.padding n)) (hd : Apart p q n (encLen config.extra.padding n)) :
    Does (encode_fallback p n q config) () (encS config.kind config.extra.padding) xs q (encLen config.extra.padding n) m := by
  unfold encode_fallback
  generalize config.extra.padding = pad at *
  refine countdown (F := encode_loop24 (charset config.kind)) (a := 24) (b := 32) (j := 0) (T := 26) (I := fun _ _ => True) (e := 0)
    (ok := fun _ => True) (out := encLen pad) (by omega) (by omega)
    (fun p q n h => by rw [encode_loop24, if_neg (by omega)]) (fun n h _ => ⟨encLen_step pad 8 n (by omega), by omega, trivial⟩)
    (fun xs ys h => encS_append _ _ (by omega)) (fun _ _ _ _ _ _ _ _ _ _ => trivial)
    ?_ ?_ n m p q xs trivial hl hs hw (by unfold Apart at hd; unfold CdSafe; omega) trivial
  · intro m p q n xs Q E hn _ hl hs hw hd hi hk _
    have hd : Apart p q n (encLen pad n) := by unfold CdSafe at hd; unfold Apart; omega
    unfold CanWrite at hw
    have he := encLen_step pad 8 n (by omega)
    rw [encode_loop24, if_pos (by omega), wp_bind]
    refine encode_inner_wp config.kind pad (k := 4) (by omega) hs (by unfold CanWrite; omega) (hd.mono (by omega) (by omega)) ?_
    have := hk _ [] rfl (by rw [enc64_length, List.length_take, show min 24 xs.length = 24 by omega]; cases pad <;> rfl) rfl
    rw [List.append_nil] at this
    exact this
  · intro m p q n xs _ _ hl hs hw hd hi
    have hd : Apart p q n (encLen pad n) := by unfold CdSafe at hd; unfold Apart; omega
    refine countdown (F := encode_loop6 (charset config.kind)) (a := 6) (b := 8) (j := 0) (T := 8) (I := fun _ _ => True) (e := 0)
      (ok := fun _ => True) (out := encLen pad) (by omega) (by omega)
      (fun p q n h => by rw [encode_loop6, if_neg (by omega)]) (fun n h _ => ⟨encLen_step pad 2 n (by omega), by omega, trivial⟩)
      (fun xs ys h => encS_append _ _ (by omega)) (fun _ _ _ _ _ _ _ _ _ _ => trivial)
      ?_ ?_ n m p q xs trivial hl hs hw (by unfold Apart at hd; unfold CdSafe; omega) trivial
    · intro m p q n xs Q E hn _ hl hs hw hd hi hk _
      unfold CanWrite at hw
      have he := encLen_step pad 2 n (by omega)
      rw [encode_loop6, if_pos (by omega)]
      refine encode_step6 (q := q) (pad := pad) hs (by omega) (by unfold CanWrite; omega) ?_
      have := hk _ [] rfl (by rw [enc64_length, List.length_take, show min 6 xs.length = 6 by omega]; cases pad <;> rfl) rfl
      rw [List.append_nil] at this
      exact this
    · intro m p q n xs _ _ hl hs hw hd hi
      have hd : Apart p q n (encLen pad n) := by unfold CdSafe at hd; unfold Apart; omega
      exact encode_tail_spec hs hl hw hd

theorem encode_head_wp (kind pad) : ∀ {k m p q n} {xs : List Byte} {Q : Ptr × Ptr × Nat → Mem → Prop} {E}, 3 * k ≤ xs.length → xs.length ≤ n → HasBytes m p xs →
    CanWrite m q (4 * k) → Apart p q xs.length (4 * k) → Q (p.add (3 * k), q.add (4 * k), n - 3 * k) (m.write q (enc64 (chr kind) pad (xs.take (3 * k)))) →
    wp (encode_head (charset kind) k p q n) Q E m := by
  intro k
  induction k with
  | zero =>
    intro m p q n xs Q E hl hn hs hw hd hQ
    simpa [encode_head] using hQ
  | succ k ih =>
    intro m p q n xs Q E hl hn hs hw hd hQ
    have hb := hs.bound
    unfold CanWrite at hw
    rw [encode_head, wp_bind, encode_bits24_wp (pad := pad) (hs.take 3) (by rw [List.length_take]; omega) (by unfold CanWrite; omega)]
    simp only [wp_bind, wp_padd, wp_assert, Mem.write_size]
    refine ⟨by omega, by omega, by simp; omega, ?_⟩
    refine ih (xs := xs.drop 3) (by simp; omega) (by simp; omega) ((hs.write_apart hd (by rw [enc64_length, List.length_take, show min 3 xs.length = 3 by omega]; cases pad <;> simp [encLen])).drop 3 (by omega)) (by unfold CanWrite; simp; omega)
      (hd.sub (by simp; omega) (by omega)) ?_
    have e : xs.take (3 * (k + 1)) = xs.take 3 ++ (xs.drop 3).take (3 * k) := by
      rw [show 3 * (k + 1) = 3 + 3 * k by omega, List.take_add]
    rw [Mem.write_append' m q _ _ (by rw [enc64_length, List.length_take, show min 3 xs.length = 3 by omega]; cases pad <;> rfl),
      ← enc64_app _ _ (by rw [List.length_take, show min 3 xs.length = 3 by omega]), ← e]
    rw [show n - 3 - 3 * k = n - 3 * (k + 1) by omega]
    simpa [Nat.mul_succ, Nat.add_comm] using hQ

/-- The second part of `encode_simd` and what follows. -/
theorem encode_simd2_spec {s : Isa} (hs : s ≠ .sse2) {m p q config} {xs : List Byte} {n : Nat} (hx : HasBytes m p xs) (hl : xs.length = n)
    (hw : CanWrite m q (encLen config.extra.padding n)) (hd : Apart p q n (encLen config.extra.padding n)) :
    Does (do
      let (src, dst, len) ← encode_simd2 s p q n config.kind
      encode_fallback src len dst config) () (encS config.kind config.extra.padding) xs q (encLen config.extra.padding n) m := by
  unfold encode_simd2
  split
  · rename_i h16
    have hb := hx.bound
    have he : encLen config.extra.padding n = 16 + encLen config.extra.padding (n - 12) := encLen_step config.extra.padding 4 n (by omega)
    unfold CanWrite at hw
    obtain ⟨y, hy, hyl⟩ := encode_bytes12_spec s hs config.kind (xs.take 16) (by simp; omega)
    rw [List.take_take, show min 12 16 = 12 from rfl, ← enc64_blocks _ config.extra.padding 4 _ (by simp; omega)] at hyl
    have hl12 : (enc64 (chr config.kind) config.extra.padding (xs.take 12)).length = 16 := by
      rw [enc64_length, List.length_take, show min 12 xs.length = 12 by omega]; cases config.extra.padding <;> rfl
    unfold Does
    simp only [wp_bind, wp_v128_load (hx.take 16) (by simp; omega), hy, wp_liftO_some, wp_v128_store, hyl, wp_padd, wp_pure, Mem.write_size]
    refine ⟨by omega, by omega, by omega, ?_⟩
    refine wp_mono (Does.after (r := ()) (xs := xs) (spec := encS config.kind config.extra.padding) (k := 12) (n1 := 16)
      (n2 := encLen config.extra.padding (n - 12)) rfl ?_ (by omega) (encS_append _ _ (by rw [List.length_take]; omega)) ?_)
      (fun _ _ h => ⟨trivial, h.2⟩) (fun _ h => h)
    · exact hl12
    · exact encode_fallback_spec ((hx.write_apart (hd.mono (b' := 16) (by omega) (by omega)) (by omega)).drop 12 (by omega)) (by simp; omega) (by unfold CanWrite; simp; omega)
        (hd.sub (by omega) (by omega))
  · exact encode_fallback_spec hx hl hw hd

theorem encode_simd_spec {s : Isa} (hs : s ≠ .sse2) {m p q config} {xs : List Byte} {n : Nat} (hx : HasBytes m p xs) (hl : xs.length = n)
    (hw : CanWrite m q (encLen config.extra.padding n)) (hd : Apart p q n (encLen config.extra.padding n)) :
    Does (encode_simd s p n q config) () (encS config.kind config.extra.padding) xs q (encLen config.extra.padding n) m := by
  unfold encode_simd encode_simd1
  split
  · rename_i h34
    have hb := hx.bound
    have he : encLen config.extra.padding n = 8 + encLen config.extra.padding (n - 6) := encLen_step config.extra.padding 2 n (by omega)
    unfold CanWrite at hw
    have loop := countdown (F := encode_loop_x2 s (ENCODING_SHIFT_X2 config.kind))
      (K := fun r => do
        let (src, dst, len) ← encode_simd2 s r.1 r.2.1 r.2.2 config.kind
        encode_fallback src len dst config) (r := ()) (a := 24) (b := 32) (j := 0) (T := 28)
      (spec := encS config.kind config.extra.padding)
      (I := fun m p => 4 ≤ p.off ∧ ∃ zs : List Byte, zs.length = 4 ∧ HasBytes m ⟨p.buf, p.off - 4⟩ zs)
      (ok := fun _ => True) (out := encLen config.extra.padding) (e := 4) (by omega) (by omega)
      (fun p q n h => by rw [encode_loop_x2, if_neg (by omega)]) (fun n h _ => ⟨encLen_step config.extra.padding 8 n (by omega), by omega, trivial⟩)
      (fun xs ys h => encS_append _ _ (by omega))
      (by
        intro m p q xs zs ⟨h4, ws, hwl, hws⟩ hx hT hd hz
        have hd : Apart p q xs.length 32 := by unfold CdSafe at hd; unfold Apart; omega
        refine ⟨by simp, (xs.drop 20).take 4, by simp; omega, ?_⟩
        have := ((hx.write_apart hd (zs := zs) (by omega)).drop 20 (by omega)).take 4
        rw [show (⟨(p.add 24).buf, (p.add 24).off - 4⟩ : Ptr) = p.add 20 by simp [Ptr.add]]
        exact this)
      (by
        intro m p q n xs Q E hn _ hl hx hw hd ⟨h4, ws, hwl, hws⟩ hk _
        have he := encLen_step config.extra.padding 8 n (by omega)
        have hb := hx.bound
        unfold CanWrite at hw
        have hx' : HasBytes m ⟨p.buf, p.off - 4⟩ (ws ++ xs.take 28) := by
          apply hws.append
          rw [show (⟨p.buf, p.off - 4⟩ : Ptr).add ws.length = p by simp [Ptr.add, hwl, h4]]
          exact hx.take 28
        obtain ⟨y, hy, hyl⟩ := encode_bytes24_spec s hs config.kind (ws ++ xs.take 28) (by simp; omega)
        rw [List.drop_append_of_le_length (by omega), List.drop_of_length_le (by omega), List.nil_append, List.take_take,
          show min 24 28 = 24 from rfl, ← enc64_blocks _ config.extra.padding 8 _ (by simp; omega)] at hyl
        rw [encode_loop_x2, if_pos (by omega)]
        simp only [wp_bind, wp_psub, wp_v256_load hx' (by simp; omega), hy, wp_liftO_some, wp_v256_store, hyl, wp_padd, Mem.write_size]
        refine ⟨h4, by omega, by omega, by omega, ?_⟩
        have := hk _ [] rfl (by rw [enc64_length, List.length_take, show min 24 xs.length = 24 by omega]; cases config.extra.padding <;> rfl) rfl
        rw [List.append_nil] at this
        exact this)
      (by
        intro m p q n xs _ _ hl hx hw hd _
        have hd : Apart p q n (encLen config.extra.padding n) := by unfold CdSafe at hd; unfold Apart; omega
        exact encode_simd2_spec hs hx hl hw hd)
    unfold Does
    rw [wp_bind, wp_bind]
    refine encode_head_wp config.kind config.extra.padding (xs := xs) (by omega) (by omega) hx (by unfold CanWrite; omega) (hd.mono (by omega) (by omega)) ?_
    have hlen : (enc64 (chr config.kind) config.extra.padding (xs.take (3 * 2))).length = 8 := by
      rw [enc64_length, List.length_take, show min (3 * 2) xs.length = 6 by omega]; cases config.extra.padding <;> rfl
    have := Does.after (k := 6) (n1 := 8) (n2 := encLen config.extra.padding (n - 6)) (n := encLen config.extra.padding n)
      (xs := xs) (spec := encS config.kind config.extra.padding) rfl hlen (by omega)
      (encS_append _ _ (by rw [List.length_take]; omega))
      (loop (n - 6) (m.write q _) (p.add 6) (q.add 8) (xs.drop 6) trivial (by simp; omega) ((hx.write_apart (hd.mono (b' := 8) (by omega) (by omega)) (Nat.le_of_eq hlen)).drop 6 (by omega))
        (by unfold CanWrite; simp; omega) (by unfold Apart at hd; unfold CdSafe; simp only [Ptr.add_buf, Ptr.add_off]; omega)
        ⟨by simp, (xs.drop 2).take 4, by simp; omega,
          ((hx.write_apart (hd.mono (b' := 8) (by omega) (by omega)) (Nat.le_of_eq hlen)).drop 2 (by omega)).take 4⟩)
    rw [wp_bind] at this
    exact this
  · exact encode_simd2_spec hs hx hl hw hd

theorem encode_auto_spec {i : Option Isa} (hi : i ≠ some .sse2) {m p q config} {xs : List Byte} {n : Nat} (hx : HasBytes m p xs) (hl : xs.length = n)
    (hw : CanWrite m q (encLen config.extra.padding n)) (hd : Apart p q n (encLen config.extra.padding n)) :
    Does (encode_auto i p n q config) () (encS config.kind config.extra.padding) xs q (encLen config.extra.padding n) m := by
  cases i with
  | none => exact encode_fallback_spec hx hl hw hd
  | some s => exact encode_simd_spec (fun h => hi (by rw [h])) hx hl hw hd

end Simd.Base64
