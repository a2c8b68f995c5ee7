import Verif.Lemmas.Base32Kernel
import Verif.Lemmas.Scalar
import Verif.Lemmas.Countdown
/-
Every implementation of base32 encoding writes `enc32`.
-/
namespace Simd.Base32
open Vs IsaId Intrin
open Base64 (ofBE toBE)

/-- `enc32` as a total function. -/
def encS (kind : Kind) (pad : Bool) (xs : List Byte) : Option (List Byte) := some (enc32 (chr kind) pad xs)

theorem encS_nil (kind pad) : encS kind pad [] = some [] := by simp [encS]
theorem encS_append (kind pad) {xs ys : List Byte} (h : xs.length % 5 = 0) :
    encS kind pad (xs ++ ys) = (encS kind pad xs).bind fun u => (encS kind pad ys).map (u ++ ·) := by
  simp [encS, enc32_app _ _ h]

theorem encLen_step (pad : Bool) (k n : Nat) (h : 5 * k ≤ n) : encLen pad n = 8 * k + encLen pad (n - 5 * k) := by
  rw [← encLen_add, show n - 5 * k + 5 * k = n by omega]

theorem charset_length (kind) : (charset kind).length = 32 := by cases kind <;> rfl

/-! ### Scalar reads -/

theorem be_fold {m p N} {xs : List Byte} {Q : BitVec 64 → Mem → Prop} {E} (hs : HasBytes m p xs) (hl : xs.length = N) (hN : N ≤ 8) :
    ∀ n i Y (acc : BitVec 64), i + n = N → acc.toNat = Y * 2 ^ (8 * n) →
      ∃ r : BitVec 64, r.toNat = (xs.drop i).foldl (fun a b => a * 256 + b.toNat) Y ∧
        (wp (foldFrom (fun i (ans : BitVec 64) => do
          let x ← rd p i
          return ans ||| (x.zeroExtend 64 <<< ((N - 1 - i) * 8))) i n acc) Q E m ↔ Q r m)
  | 0, i, Y, acc, hi, hacc => ⟨acc, by rw [hacc, List.drop_of_length_le (by omega)]; simp, by simp [foldFrom]⟩
  | n + 1, i, Y, acc, hi, hacc => by
    have hx : i < xs.length := by omega
    have hb := xs[i].isLt
    have hp : 2 ^ (8 * n) * 256 ≤ 2 ^ 64 := by
      rw [show (256 : Nat) = 2 ^ 8 from rfl, ← Nat.pow_add]; exact Nat.pow_le_pow_right (by omega) (by omega)
    have hstep := acc_step acc xs[i] (Y := Y) (s := 8 * n) (b := 8) (by rw [hacc, show 8 * (n + 1) = 8 * n + 8 by omega]) hb
      (Nat.lt_of_lt_of_le (by rw [Nat.mul_comm]; exact (Nat.mul_lt_mul_left (Nat.two_pow_pos _)).2 hb) hp)
    rw [show 8 * n = (N - 1 - i) * 8 by omega] at hstep
    obtain ⟨r, hr, hw⟩ := be_fold hs hl hN n (i + 1) (Y * 256 + xs[i].toNat) (acc ||| (xs[i].zeroExtend 64 <<< ((N - 1 - i) * 8))) (by omega)
      (by rw [hstep, show 8 * n = (N - 1 - i) * 8 by omega]; rfl)
    refine ⟨r, ?_, ?_⟩
    · rw [hr, List.drop_eq_getElem_cons hx, List.foldl_cons]
    · simp only [foldFrom, wp_bind, wp_rd_iff hs hx, wp_pure]
      exact hw

theorem beNat_lt : ∀ (xs : List Byte) (Y : Nat), xs.foldl (fun a b => a * 256 + b.toNat) Y < (Y + 1) * 256 ^ xs.length
  | [], Y => by simp
  | x :: xs, Y => by
    have := beNat_lt xs (Y * 256 + x.toNat)
    have hb := x.isLt
    rw [List.foldl_cons, List.length_cons, Nat.pow_succ, Nat.mul_comm (256 ^ xs.length), ← Nat.mul_assoc]
    exact Nat.lt_of_lt_of_le this (Nat.mul_le_mul_right _ (by omega))

/-- `(a << k) | b` as a sum. -/
theorem shl_or_toNat (a : Byte) {w : Nat} (b : BitVec w) (hw : w + 8 ≤ 64) :
    ((a.zeroExtend 64 <<< w) ||| b.zeroExtend 64).toNat = a.toNat * 2 ^ w + b.toNat := by
  have ha := a.isLt
  have hb := b.isLt
  have hp : 2 ^ w * 256 ≤ 2 ^ 64 := by
    rw [show (256 : Nat) = 2 ^ 8 from rfl, ← Nat.pow_add]; exact Nat.pow_le_pow_right (by omega) hw
  have h1 : a.toNat * 2 ^ w < 2 ^ 64 := Nat.lt_of_lt_of_le (by rw [Nat.mul_comm]; exact (Nat.mul_lt_mul_left (Nat.two_pow_pos _)).2 ha) hp
  have h2 : b.toNat < 2 ^ 64 := Nat.lt_of_lt_of_le hb (Nat.le_trans (Nat.le_mul_of_pos_right _ (by omega)) hp)
  rw [BitVec.toNat_or, BitVec.toNat_shiftLeft, zext_toNat, Nat.shiftLeft_eq, Nat.mod_eq_of_lt (show a.toNat < 2 ^ 64 by omega), Nat.mod_eq_of_lt h1,
    show (b.zeroExtend 64).toNat = b.toNat % 2 ^ 64 from BitVec.toNat_setWidth .., Nat.mod_eq_of_lt h2, ← Nat.shiftLeft_eq,
    ← Nat.shiftLeft_add_eq_or_of_lt hb, Nat.shiftLeft_eq]

theorem read_be_bytes_wp (w : Bool) {m p N} {xs : List Byte} {Q : BitVec 64 → Mem → Prop} {E} (hs : HasBytes m p xs) (hl : xs.length = N) (hN : N ≤ 5) :
    ∃ r : BitVec 64, r.toNat = beNat xs ∧ (wp (read_be_bytes w N p) Q E m ↔ Q r m) := by
  have hb := hs.bound
  unfold read_be_bytes
  split
  · rename_i h
    match xs, (show xs.length = 3 by omega) with
    | [a, b, c], _ =>
      refine ⟨(a.zeroExtend 64 <<< 16) ||| (ofBE 16 [b, c]).zeroExtend 64, ?_, ?_⟩
      · rw [shl_or_toNat _ _ (by omega), ofBE_toNat _ (by simp)]
        simp only [beNat, List.foldl_cons, List.foldl_nil]; omega
      · have hd : HasBytes m (p.add 1) [b, c] := hs.drop 1 (by simp)
        simp only [wp_bind, wp_rd_iff hs (show 0 < [a, b, c].length by simp), wp_padd, wp_loadBytes_iff hd (show [b, c].length = 2 from rfl), wp_pure,
          List.getElem_cons_zero]
        simp only [List.length_cons, List.length_nil] at hb
        exact ⟨fun h => h.2, fun h => ⟨by omega, h⟩⟩
  · split
    · rename_i h
      match xs, (show xs.length = 5 by omega) with
      | [a, b, c, d, e], _ =>
        refine ⟨(a.zeroExtend 64 <<< 32) ||| (ofBE 32 [b, c, d, e]).zeroExtend 64, ?_, ?_⟩
        · rw [shl_or_toNat _ _ (by omega), ofBE_toNat _ (by simp)]
          simp only [beNat, List.foldl_cons, List.foldl_nil]; omega
        · have hd : HasBytes m (p.add 1) [b, c, d, e] := hs.drop 1 (by simp)
          simp only [wp_bind, wp_rd_iff hs (show 0 < [a, b, c, d, e].length by simp), wp_padd, wp_loadBytes_iff hd (show [b, c, d, e].length = 4 from rfl), wp_pure,
            List.getElem_cons_zero]
          simp only [List.length_cons, List.length_nil] at hb
          exact ⟨fun h => h.2, fun h => ⟨by omega, h⟩⟩
    · exact be_fold hs hl (by omega) N 0 0 0 (by omega) (by simp)

/-! ### Scalar writes -/

/-- The characters of the `N` 5-bit digits of `x`. -/
def digitsOf (ch : Nat → Byte) (N X : Nat) : List Byte := (List.range' 0 N).map fun k => ch (X / 2 ^ ((N - 1 - k) * 5) % 32)

theorem encode_bits_wp {m q kind N} {x : BitVec 64} {Q : Unit → Mem → Prop} {E} (h0 : 0 < N) (hx : x.toNat < 2 ^ (5 * N)) (hw : CanWrite m q N) :
    wp (encode_bits N q (charset kind) x) Q E m ↔ Q () (m.write q (digitsOf (chr kind) N x.toNat)) := by
  have hi : ∀ i, ((x >>> ((N - 1 - i) * 5)) &&& 0x1f#64).toNat = x.toNat / 2 ^ ((N - 1 - i) * 5) % 32 := fun i => by rw [shr_and _ _ _ 5 rfl]; rfl
  have h1 : (x >>> ((N - 1) * 5)).toNat = x.toNat / 2 ^ ((N - 1 - 0) * 5) % 32 := by
    rw [BitVec.toNat_ushiftRight, Nat.shiftRight_eq_div_pow, Nat.sub_zero, Nat.mod_eq_of_lt]
    apply Nat.div_lt_of_lt_mul
    rw [show (32 : Nat) = 2 ^ 5 from rfl, ← Nat.pow_add, show (N - 1) * 5 + 5 = 5 * N by omega]
    exact hx
  have hlt : ∀ k, x.toNat / 2 ^ ((N - 1 - k) * 5) % 32 < (charset kind).length := fun k => by rw [charset_length]; exact Nat.mod_lt _ (by omega)
  unfold CanWrite at hw
  have hloop := fun m' (hm : m'.size = m.size) => write_loop_wp (charset kind) (fun i => ((x >>> ((N - 1 - i) * 5)) &&& 0x1f#64).toNat) (q := q) (E := E) (N - 1) 1
    (m := m') (Q := Q) (fun k _ => by simp only [hi]; exact hlt k) (by unfold CanWrite; rw [hm]; omega)
  unfold encode_bits
  rw [wp_bind, wp_tread_of h1 (hlt 0), wp_bind, wp_wrt]
  have e : (m.write (q.add 0) [(charset kind).getD (x.toNat / 2 ^ ((N - 1 - 0) * 5) % 32) 0]).write (q.add 1)
      ((List.range' 1 (N - 1)).map fun k => (charset kind).getD ((x >>> ((N - 1 - k) * 5)) &&& 0x1f#64).toNat 0) = m.write q (digitsOf (chr kind) N x.toNat) := by
    rw [Ptr.add_zero, Mem.write_append' m q [_] _ (n := 1) rfl, digitsOf, show List.range' 0 N = 0 :: List.range' 1 (N - 1) by
      rw [show N = N - 1 + 1 by omega, List.range'_succ]; rfl]
    simp only [hi, List.map_cons]; rfl
  constructor
  · rintro ⟨_, h⟩
    have := (hloop _ (by simp)).1 h
    rw [e] at this; exact this
  · intro h
    refine ⟨by simp only [Nat.add_zero]; omega, ?_⟩
    refine (hloop _ (by simp)).2 ?_
    rw [e]; exact h

theorem fill_wp {q : Ptr} {c : Byte} {E} : ∀ (n i : Nat) {m : Mem} {Q : Unit → Mem → Prop}, CanWrite m q (i + n) →
    (wp (forFrom (fun i => wrt q i c) i n) Q E m ↔ Q () (m.write (q.add i) (List.replicate n c)))
  | 0, i, m, Q, _ => by simp [forFrom]
  | n + 1, i, m, Q, hw => by
    unfold CanWrite at hw
    have ih := fun m' (hm : m'.size = m.size) => fill_wp (q := q) (c := c) (E := E) n (i + 1) (m := m') (Q := Q) (by unfold CanWrite; rw [hm]; omega)
    simp only [forFrom, wp_bind, wp_wrt]
    have e : (m.write (q.add i) [c]).write (q.add (i + 1)) (List.replicate n c) = m.write (q.add i) (List.replicate (n + 1) c) := by
      rw [show q.add (i + 1) = (q.add i).add 1 by simp, Mem.write_append' m (q.add i) [_] _ (n := 1) rfl]; rfl
    constructor
    · rintro ⟨_, h⟩
      rw [ih _ (by simp), e] at h; exact h
    · intro h
      refine ⟨by omega, ?_⟩
      rw [ih _ (by simp), e]; exact h

/-- The digits of the bytes followed by zero bits. -/
theorem encode_bits_pad_wp {m q kind N pad} {x : BitVec 64} {L : List Byte} {Q : Unit → Mem → Prop} {E} (h0 : 0 < N) (hN : N ≤ 8) (hx : x.toNat < 2 ^ (5 * N))
    (hw : CanWrite m q (if pad then 8 else N)) (hL : digitsOf (chr kind) N x.toNat = L) :
    wp (do encode_bits N q (charset kind) x; write_pad q N pad) Q E m ↔
      Q () (m.write q (L ++ if pad then List.replicate (8 - N) 0x3d#8 else [])) := by
  have hlen : (digitsOf (chr kind) N x.toNat).length = N := by simp [digitsOf]
  unfold CanWrite at hw
  rw [wp_bind, encode_bits_wp h0 hx (by unfold CanWrite; split at hw <;> omega)]
  subst hL
  cases pad
  · simp [write_pad]
  · simp only [write_pad, if_true] at hw ⊢
    rw [fill_wp (8 - N) N (by unfold CanWrite; rw [Mem.write_size]; omega), Mem.write_append' m q _ _ hlen]; rfl

theorem shl_toNat (x : BitVec 64) (k : Nat) (h : x.toNat * 2 ^ k < 2 ^ 64) : (x <<< k).toNat = x.toNat * 2 ^ k := by
  rw [BitVec.toNat_shiftLeft, Nat.shiftLeft_eq, Nat.mod_eq_of_lt h]

theorem digits8 (ch : Nat → Byte) (a b c d e : Byte) :
    digitsOf ch 8 (beNat [a, b, c, d, e]) = encG ch (fun i => [a, b, c, d, e].getD i 0#8) := by
  have ha := a.isLt; have hb := b.isLt; have hc := c.isLt; have hd := d.isLt; have he := e.isLt
  unfold digitsOf
  rw [show (List.range' 0 8) = [0, 1, 2, 3, 4, 5, 6, 7] from rfl]
  simp only [beNat, List.foldl_cons, List.foldl_nil, List.map_cons, List.map_nil, encG, List.getD_cons_zero, List.getD_cons_succ, Nat.reduceMul, Nat.reduceSub, Nat.reducePow]
  generalize a.toNat = a at *
  generalize b.toNat = b at *
  generalize c.toNat = c at *
  generalize d.toNat = d at *
  generalize e.toNat = e at *
  generalize hX : ((((0 * 256 + a) * 256 + b) * 256 + c) * 256 + d) * 256 + e = X
  rw [show X / 34359738368 % 32 = a / 8 by omega, show X / 1073741824 % 32 = a % 8 * 4 + b / 64 by omega,
    show X / 33554432 % 32 = b / 2 % 32 by omega, show X / 1048576 % 32 = b % 2 * 16 + c / 16 by omega,
    show X / 32768 % 32 = c % 16 * 2 + d / 128 by omega, show X / 1024 % 32 = d / 4 % 32 by omega,
    show X / 32 % 32 = d % 4 * 8 + e / 32 by omega, show X / 1 % 32 = e % 32 by omega]

/-- The first `n` digits of fewer bytes, filled with zero bits. -/
theorem digits_tail (ch : Nat → Byte) (xs : List Byte) (n s : Nat) (h : (xs.length = 1 ∧ n = 2 ∧ s = 2) ∨ (xs.length = 2 ∧ n = 4 ∧ s = 4) ∨
    (xs.length = 3 ∧ n = 5 ∧ s = 1) ∨ (xs.length = 4 ∧ n = 7 ∧ s = 3)) :
    digitsOf ch n (beNat xs * 2 ^ s) = (encG ch (fun i => xs.getD i 0#8)).take n := by
  rcases h with ⟨h, rfl, rfl⟩ | ⟨h, rfl, rfl⟩ | ⟨h, rfl, rfl⟩ | ⟨h, rfl, rfl⟩
  · match xs, h with
    | [a], _ =>
      have ha := a.isLt
      unfold digitsOf
      rw [show (List.range' 0 2) = [0, 1] from rfl]
      simp only [beNat, List.foldl_cons, List.foldl_nil, List.map_cons, List.map_nil, encG, List.getD_cons_zero, List.getD_cons_succ, List.getD_nil,
        List.take_succ_cons, List.take_zero, BitVec.toNat_ofNat, Nat.reduceMul, Nat.reduceSub, Nat.reducePow]
      generalize a.toNat = a at *
      rw [show (0 * 256 + a) * 4 / 32 % 32 = a / 8 by omega, show (0 * 256 + a) * 4 / 1 % 32 = a % 8 * 4 + 0 % 256 / 64 by omega]
  · match xs, h with
    | [a, b], _ =>
      have ha := a.isLt; have hb := b.isLt
      unfold digitsOf
      rw [show (List.range' 0 4) = [0, 1, 2, 3] from rfl]
      simp only [beNat, List.foldl_cons, List.foldl_nil, List.map_cons, List.map_nil, encG, List.getD_cons_zero, List.getD_cons_succ, List.getD_nil,
        List.take_succ_cons, List.take_zero, BitVec.toNat_ofNat, Nat.reduceMul, Nat.reduceSub, Nat.reducePow]
      generalize a.toNat = a at *
      generalize b.toNat = b at *
      generalize hX : ((0 * 256 + a) * 256 + b) * 16 = X
      rw [show X / 32768 % 32 = a / 8 by omega, show X / 1024 % 32 = a % 8 * 4 + b / 64 by omega,
        show X / 32 % 32 = b / 2 % 32 by omega, show X / 1 % 32 = b % 2 * 16 + 0 % 256 / 16 by omega]
  · match xs, h with
    | [a, b, c], _ =>
      have ha := a.isLt; have hb := b.isLt; have hc := c.isLt
      unfold digitsOf
      rw [show (List.range' 0 5) = [0, 1, 2, 3, 4] from rfl]
      simp only [beNat, List.foldl_cons, List.foldl_nil, List.map_cons, List.map_nil, encG, List.getD_cons_zero, List.getD_cons_succ, List.getD_nil,
        List.take_succ_cons, List.take_zero, BitVec.toNat_ofNat, Nat.reduceMul, Nat.reduceSub, Nat.reducePow]
      generalize a.toNat = a at *
      generalize b.toNat = b at *
      generalize c.toNat = c at *
      generalize hX : (((0 * 256 + a) * 256 + b) * 256 + c) * 2 = X
      rw [show X / 1048576 % 32 = a / 8 by omega, show X / 32768 % 32 = a % 8 * 4 + b / 64 by omega,
        show X / 1024 % 32 = b / 2 % 32 by omega, show X / 32 % 32 = b % 2 * 16 + c / 16 by omega, show X / 1 % 32 = c % 16 * 2 + 0 % 256 / 128 by omega]
  · match xs, h with
    | [a, b, c, d], _ =>
      have ha := a.isLt; have hb := b.isLt; have hc := c.isLt; have hd := d.isLt
      unfold digitsOf
      rw [show (List.range' 0 7) = [0, 1, 2, 3, 4, 5, 6] from rfl]
      simp only [beNat, List.foldl_cons, List.foldl_nil, List.map_cons, List.map_nil, encG, List.getD_cons_zero, List.getD_cons_succ, List.getD_nil,
        List.take_succ_cons, List.take_zero, BitVec.toNat_ofNat, Nat.reduceMul, Nat.reduceSub, Nat.reducePow]
      generalize a.toNat = a at *
      generalize b.toNat = b at *
      generalize c.toNat = c at *
      generalize d.toNat = d at *
      generalize hX : ((((0 * 256 + a) * 256 + b) * 256 + c) * 256 + d) * 8 = X
      rw [show X / 1073741824 % 32 = a / 8 by omega, show X / 33554432 % 32 = a % 8 * 4 + b / 64 by omega,
        show X / 1048576 % 32 = b / 2 % 32 by omega, show X / 32768 % 32 = b % 2 * 16 + c / 16 by omega, show X / 1024 % 32 = c % 16 * 2 + d / 128 by omega,
        show X / 32 % 32 = d / 4 % 32 by omega, show X / 1 % 32 = d % 4 * 8 + 0 % 256 / 32 by omega]

theorem beNat_bound (xs : List Byte) : beNat xs < 256 ^ xs.length := by
  have := beNat_lt xs 0
  simpa [beNat] using this

theorem block5_wp (w : Bool) {m p q kind pad} {xs : List Byte} {α : Type} {f : Prog α} {Q : α → Mem → Prop} {E} (hs : HasBytes m p xs) (hl : 5 ≤ xs.length)
    (hw : CanWrite m q 8) (hk : wp f Q E (m.write q (enc32 (chr kind) pad (xs.take 5)))) :
    wp (do
      let u40 ← read_be_bytes w 5 p
      encode_bits 8 q (charset kind) u40
      padd p 5
      padd q 8
      f) Q E m := by
  have hb := hs.bound
  unfold CanWrite at hw
  rw [wp_bind]
  have hlen : (xs.take 5).length = 5 := by rw [List.length_take]; omega
  obtain ⟨r, hr, hiff⟩ := read_be_bytes_wp w (Q := fun u40 m' => wp (do
      encode_bits 8 q (charset kind) u40
      padd p 5
      padd q 8
      f) Q E m') (E := E) (hs.take 5) hlen (by omega)
  rw [hiff]
  have hlt := beNat_bound (xs.take 5)
  rw [hlen] at hlt
  rw [wp_bind, encode_bits_wp (by omega) (by rw [hr]; omega) (by unfold CanWrite; omega)]
  simp only [wp_bind, wp_padd, Mem.write_size]
  refine ⟨by omega, by omega, ?_⟩
  rw [hr]
  generalize xs.take 5 = ys at *
  match ys, hlen with
  | [a, b, c, d, e], _ =>
    rw [digits8]
    rw [enc32, enc32_nil, List.append_nil] at hk
    exact hk

theorem extra_case (w : Bool) {m p q kind pad} {xs : List Byte} {k n s : Nat} (hs : HasBytes m p xs) (hl : xs.length = k)
    (h : (k = 1 ∧ n = 2 ∧ s = 2) ∨ (k = 2 ∧ n = 4 ∧ s = 4) ∨ (k = 3 ∧ n = 5 ∧ s = 1) ∨ (k = 4 ∧ n = 7 ∧ s = 3))
    (hw : CanWrite m q (if pad then 8 else n)) (he : enc32 (chr kind) pad xs = encT (chr kind) pad n xs) (hlen : encLen pad k = if pad then 8 else n) :
    Does (do
      let u := (← read_be_bytes w k p) <<< s
      encode_bits n q (charset kind) u
      write_pad q n pad) () (encS kind pad) xs q (encLen pad k) m := by
  unfold Does
  rw [wp_bind]
  obtain ⟨r, hr, hiff⟩ := read_be_bytes_wp w (Q := fun r m' => wp (do
      encode_bits n q (charset kind) (r <<< s)
      write_pad q n pad) (fun a m' => a = () ∧ Post (encS kind pad) xs q (encLen pad k) m m') (Fail (encS kind pad) xs q (encLen pad k) m) m')
      (E := Fail (encS kind pad) xs q (encLen pad k) m) hs hl (by omega)
  refine hiff.2 ?_
  have hlt := beNat_bound xs
  rw [hl] at hlt
  have hbound : beNat xs * 2 ^ s < 2 ^ (5 * n) ∧ beNat xs * 2 ^ s < 2 ^ 64 ∧ 0 < n ∧ n ≤ 8 := by
    rcases h with ⟨rfl, rfl, rfl⟩ | ⟨rfl, rfl, rfl⟩ | ⟨rfl, rfl, rfl⟩ | ⟨rfl, rfl, rfl⟩ <;> omega
  have hsh : (r <<< s).toNat = beNat xs * 2 ^ s := by rw [shl_toNat _ _ (by rw [hr]; exact hbound.2.1), hr]
  rw [encode_bits_pad_wp (L := (encG (chr kind) (fun i => xs.getD i 0#8)).take n) hbound.2.2.1 hbound.2.2.2 (by rw [hsh]; exact hbound.1) hw
    (by rw [hsh]; exact digits_tail (chr kind) xs n s (by rcases h with h | h | h | h <;> simp [h, hl]))]
  refine ⟨rfl, _, rfl, by rw [enc32_length, hl], ?_⟩
  rw [he]; rfl

theorem encode_extra_spec (w : Bool) {m p q kind pad} {xs : List Byte} {k : Nat} (hs : HasBytes m p xs) (hl : xs.length = k) (hk : k < 5)
    (hw : CanWrite m q (encLen pad k)) :
    Does (encode_extra w p k q (charset kind) pad) () (encS kind pad) xs q (encLen pad k) m := by
  match k, xs, hl with
  | 0, [], _ => exact Does.pure (encS_nil _ _)
  | 1, [a], _ =>
    have e : encLen pad 1 = if pad then 8 else 2 := by cases pad <;> simp [encLen, tailLen]
    exact extra_case w (n := 2) (s := 2) hs rfl (by omega) (by rw [← e]; exact hw) rfl e
  | 2, [a, b], _ =>
    have e : encLen pad 2 = if pad then 8 else 4 := by cases pad <;> simp [encLen, tailLen]
    exact extra_case w (n := 4) (s := 4) hs rfl (by omega) (by rw [← e]; exact hw) rfl e
  | 3, [a, b, c], _ =>
    have e : encLen pad 3 = if pad then 8 else 5 := by cases pad <;> simp [encLen, tailLen]
    exact extra_case w (n := 5) (s := 1) hs rfl (by omega) (by rw [← e]; exact hw) rfl e
  | 4, [a, b, c, d], _ =>
    have e : encLen pad 4 = if pad then 8 else 7 := by cases pad <;> simp [encLen, tailLen]
    exact extra_case w (n := 7) (s := 3) hs rfl (by omega) (by rw [← e]; exact hw) rfl e

theorem encLen_five (pad) (xs : List Byte) (ch) (h : xs.length = 5) : (enc32 ch pad xs).length = 8 := by
  rw [enc32_length, h]; simp [encLen]

theorem encode_fallback_spec (w : Bool) {m p q kind pad} {xs : List Byte} {n : Nat} (hs : HasBytes m p xs) (hl : xs.length = n)
    (hw : CanWrite m q (encLen pad n)) (hd : Apart p q n (encLen pad n)) :
    Does (encode_fallback w p n q kind pad) () (encS kind pad) xs q (encLen pad n) m := by
  have hb := hs.bound
  unfold CanWrite at hw
  have he := encLen_step pad (n / 5) n (by omega)
  rw [show n - 5 * (n / 5) = n % 5 by omega] at he
  unfold encode_fallback
  refine Does.padd (by omega) ?_
  rw [show n / 5 * 5 = 5 * (n / 5) by omega]
  refine Does.seqS (k := 5 * (n / 5)) (n1 := 8 * (n / 5)) (n2 := encLen pad (n % 5)) hs (by omega) hw he (by unfold Apart at hd; omega)
    (encS_append _ _ (by rw [List.length_take]; omega))
    (loop_specS (F := fun e p q => encode_loop5 w (charset kind) e p q) (ret := fun p q => (p, q)) (a := 5) (b := 8) (by omega)
      (fun e p q h => by rw [encode_loop5, if_neg h]) (encS_nil kind pad) (fun xs ys h => encS_append kind pad (by omega))
      (by
        intro e m p q xs Q E he hl hs hw _ hk _
        rw [encode_loop5, if_pos he]
        refine block5_wp w (pad := pad) hs (by omega) hw ?_
        rw [List.take_of_length_le (by omega)]
        exact hk _ rfl (encLen_five pad xs _ hl))
      (n / 5) m p q _ (by rw [List.length_take]; omega) (hs.take _) (by unfold CanWrite; omega) (by unfold Apart at hd; unfold Safe; omega)) ?_
  intro m' hs' hw' _
  exact encode_extra_spec w hs' (by rw [List.length_drop]; omega) (by omega) hw'

theorem encode_head_wp (w : Bool) (kind pad) : ∀ {k m p q} {xs : List Byte} {Q : Ptr × Ptr → Mem → Prop} {E}, 5 * k ≤ xs.length → HasBytes m p xs →
    CanWrite m q (8 * k) → Apart p q xs.length (8 * k) → Q (p.add (5 * k), q.add (8 * k)) (m.write q (enc32 (chr kind) pad (xs.take (5 * k)))) →
    wp (encode_head w (charset kind) k p q) Q E m := by
  intro k
  induction k with
  | zero =>
    intro m p q xs Q E hl hs hw hd hQ
    simpa [encode_head] using hQ
  | succ k ih =>
    intro m p q xs Q E hl hs hw hd hQ
    unfold CanWrite at hw
    rw [encode_head]
    refine block5_wp w (pad := pad) hs (by omega) (by unfold CanWrite; omega) ?_
    refine ih (xs := xs.drop 5) (by simp; omega) ((hs.write_apart hd (by rw [encLen_five _ _ _ (by rw [List.length_take]; omega)]; omega)).drop 5 (by omega)) (by unfold CanWrite; simp; omega)
      (hd.sub (by simp; omega) (by omega)) ?_
    have e : xs.take (5 * (k + 1)) = xs.take 5 ++ (xs.drop 5).take (5 * k) := by
      rw [show 5 * (k + 1) = 5 + 5 * k by omega, List.take_add]
    rw [Mem.write_append' m q _ _ (encLen_five _ _ _ (by rw [List.length_take]; omega)),
      ← enc32_app _ _ (by rw [List.length_take, show min 5 xs.length = 5 by omega]), ← e]
    simpa [Nat.mul_succ, Nat.add_comm] using hQ

theorem encode_simd_spec (w : Bool) {s : Isa} (hs : Good s) {m p q kind pad} {xs : List Byte} {n : Nat} (hx : HasBytes m p xs) (hl : xs.length = n)
    (hw : CanWrite m q (encLen pad n)) (hd : Apart p q n (encLen pad n)) :
    Does (encode_simd w s p n q kind pad) () (encS kind pad) xs q (encLen pad n) m := by
  unfold encode_simd encode_simd1
  split
  · rename_i h36
    have hb := hx.bound
    have he : encLen pad n = 16 + encLen pad (n - 10) := encLen_step pad 2 n (by omega)
    unfold CanWrite at hw
    have loop := countdown (F := encode_loop20 s (ENCODING_LUT kind))
      (K := fun r => encode_fallback w r.1 r.2.2 r.2.1 kind pad) (r := ()) (a := 20) (b := 32) (j := 0) (T := 26)
      (spec := encS kind pad)
      (I := fun m p => 6 ≤ p.off ∧ ∃ zs : List Byte, zs.length = 6 ∧ HasBytes m ⟨p.buf, p.off - 6⟩ zs)
      (ok := fun _ => True) (out := encLen pad) (e := 6) (by omega) (by omega)
      (fun p q n h => by rw [encode_loop20, if_neg (by omega)]) (fun n h _ => ⟨encLen_step pad 4 n (by omega), by omega, trivial⟩)
      (fun xs ys h => encS_append _ _ (by omega))
      (by
        intro m p q xs zs ⟨h4, ws, hwl, hws⟩ hx hT hd hz
        have hd : Apart p q xs.length 32 := by unfold CdSafe at hd; unfold Apart; omega
        refine ⟨by simp, (xs.drop 14).take 6, by simp; omega, ?_⟩
        have := ((hx.write_apart hd (zs := zs) (by omega)).drop 14 (by omega)).take 6
        rw [show (⟨(p.add 20).buf, (p.add 20).off - 6⟩ : Ptr) = p.add 14 by simp [Ptr.add]]
        exact this)
      (by
        intro m p q n xs Q E hn _ hl hx hw hd ⟨h4, ws, hwl, hws⟩ hk _
        have he := encLen_step pad 4 n (by omega)
        have hb := hx.bound
        unfold CanWrite at hw
        have hx' : HasBytes m ⟨p.buf, p.off - 6⟩ (ws ++ xs.take 26) := by
          apply hws.append
          rw [show (⟨p.buf, p.off - 6⟩ : Ptr).add ws.length = p by simp [Ptr.add, hwl, h4]]
          exact hx.take 26
        obtain ⟨y, hy, hyl⟩ := encode_bytes20_spec hs kind (ws ++ xs.take 26) (by simp; omega)
        rw [List.drop_append_of_le_length (by omega), List.drop_of_length_le (by omega), List.nil_append, List.take_take,
          show min 20 26 = 20 from rfl, ← enc32_blocks _ pad 4 _ (by simp; omega)] at hyl
        rw [encode_loop20, if_pos (by omega)]
        simp only [wp_bind, wp_psub, wp_v256_load hx' (by simp; omega), hy, wp_liftO_some, wp_v256_store, hyl, wp_padd, Mem.write_size]
        refine ⟨h4, by omega, by omega, by omega, ?_⟩
        have := hk _ [] rfl (by rw [enc32_length, List.length_take, show min 20 xs.length = 20 by omega]; simp [encLen]) rfl
        rw [List.append_nil] at this
        exact this)
      (by
        intro m p q n xs _ _ hl hx hw hd _
        have hd : Apart p q n (encLen pad n) := by unfold CdSafe at hd; unfold Apart; omega
        exact encode_fallback_spec w hx hl hw hd)
    unfold Does
    rw [wp_bind, wp_bind]
    refine encode_head_wp w kind pad (xs := xs) (by omega) hx (by unfold CanWrite; omega) (hd.mono (by omega) (by omega)) ?_
    have hlen : (enc32 (chr kind) pad (xs.take (5 * 2))).length = 16 := by
      rw [enc32_length, List.length_take, show min (5 * 2) xs.length = 10 by omega]; simp [encLen]
    have := Does.after (k := 10) (n1 := 16) (n2 := encLen pad (n - 10)) (n := encLen pad n)
      (xs := xs) (spec := encS kind pad) rfl hlen (by omega)
      (encS_append _ _ (by rw [List.length_take]; omega))
      (loop (n - 10) (m.write q _) (p.add 10) (q.add 16) (xs.drop 10) trivial (by simp; omega) ((hx.write_apart (hd.mono (b' := 16) (by omega) (by omega)) (Nat.le_of_eq hlen)).drop 10 (by omega))
        (by unfold CanWrite; simp; omega) (by unfold Apart at hd; unfold CdSafe; simp only [Ptr.add_buf, Ptr.add_off]; omega)
        ⟨by simp, (xs.drop 4).take 6, by simp; omega,
          ((hx.write_apart (hd.mono (b' := 16) (by omega) (by omega)) (Nat.le_of_eq hlen)).drop 4 (by omega)).take 6⟩)
    rw [wp_bind] at this
    exact this
  · exact encode_fallback_spec w hx hl hw hd

theorem encode_auto_spec (w : Bool) {i : Option Isa} (hi : ∀ s, i = some s → Good s) {m p q kind pad} {xs : List Byte} {n : Nat} (hx : HasBytes m p xs) (hl : xs.length = n)
    (hw : CanWrite m q (encLen pad n)) (hd : Apart p q n (encLen pad n)) :
    Does (encode_auto w i p n q kind pad) () (encS kind pad) xs q (encLen pad n) m := by
  cases i with
  | none => exact encode_fallback_spec w hx hl hw hd
  | some s => exact encode_simd_spec w (hi s rfl) hx hl hw hd

end Simd.Base32
