import Verif.Lemmas.Rfc
/-
Base32 on byte groups: `enc32`, `dec32`, their relation to RFC 4648 and to each other.
-/
namespace Simd.Base32
open Spec

/-- The eight characters of five bytes. -/
def encG (ch : Nat → Byte) (f : Nat → Byte) : List Byte :=
  [ch ((f 0).toNat / 8), ch ((f 0).toNat % 8 * 4 + (f 1).toNat / 64), ch ((f 1).toNat / 2 % 32),
   ch ((f 1).toNat % 2 * 16 + (f 2).toNat / 16), ch ((f 2).toNat % 16 * 2 + (f 3).toNat / 128), ch ((f 3).toNat / 4 % 32),
   ch ((f 3).toNat % 4 * 8 + (f 4).toNat / 32), ch ((f 4).toNat % 32)]

/-- The characters of the last `k < 5` bytes: the first `n` of the group filled with zeros. -/
def encT (ch : Nat → Byte) (pad : Bool) (n : Nat) (bs : List Byte) : List Byte :=
  (encG ch (fun i => bs.getD i 0#8)).take n ++ if pad then List.replicate (8 - n) 0x3d#8 else []

def enc32 (ch : Nat → Byte) (pad : Bool) : List Byte → List Byte
  | a :: b :: c :: d :: e :: r => encG ch (fun i => [a, b, c, d, e].getD i 0#8) ++ enc32 ch pad r
  | [a, b, c, d] => encT ch pad 7 [a, b, c, d]
  | [a, b, c] => encT ch pad 5 [a, b, c]
  | [a, b] => encT ch pad 4 [a, b]
  | [a] => encT ch pad 2 [a]
  | [] => []

theorem encG_length (ch f) : (encG ch f).length = 8 := rfl
theorem encG_loc (ch) (f f' : Nat → Byte) (h : ∀ r, r < 5 → f r = f' r) : encG ch f = encG ch f' := by
  simp [encG, h 0 (by omega), h 1 (by omega), h 2 (by omega), h 3 (by omega), h 4 (by omega)]

/-- Number of characters of the last `k` bytes. -/
def tailLen (k : Nat) : Nat := if k = 0 then 0 else if k = 1 then 2 else if k = 2 then 4 else if k = 3 then 5 else 7

/-- Length of the encoding of `n` bytes. -/
def encLen (pad : Bool) (n : Nat) : Nat :=
  n / 5 * 8 + if n % 5 = 0 then 0 else if pad then 8 else tailLen (n % 5)

theorem encLen_add (pad : Bool) (k n : Nat) : encLen pad (n + 5 * k) = 8 * k + encLen pad n := by
  unfold encLen
  rw [show (n + 5 * k) % 5 = n % 5 by omega, show (n + 5 * k) / 5 = n / 5 + k by omega]
  omega

theorem encT_length (ch pad n bs) (h : n ≤ 8) : (encT ch pad n bs).length = if pad then 8 else n := by
  unfold encT
  rw [List.length_append, List.length_take, encG_length]
  cases pad
  · simp; omega
  · simp; omega

theorem enc32_length (ch pad) : ∀ xs, (enc32 ch pad xs).length = encLen pad xs.length
  | a :: b :: c :: d :: e :: r => by
    rw [enc32, List.length_append, encG_length, enc32_length ch pad r]
    exact (encLen_add pad 1 r.length).symm
  | [a, b, c, d] => by rw [enc32, encT_length _ _ _ _ (by omega)]; cases pad <;> simp [encLen, tailLen]
  | [a, b, c] => by rw [enc32, encT_length _ _ _ _ (by omega)]; cases pad <;> simp [encLen, tailLen]
  | [a, b] => by rw [enc32, encT_length _ _ _ _ (by omega)]; cases pad <;> simp [encLen, tailLen]
  | [a] => by rw [enc32, encT_length _ _ _ _ (by omega)]; cases pad <;> simp [encLen, tailLen]
  | [] => by simp [enc32, encLen]

@[simp] theorem enc32_nil (ch pad) : enc32 ch pad [] = [] := rfl

theorem enc32_append (ch pad) : ∀ (k : Nat) (xs ys : List Byte), xs.length = 5 * k →
    enc32 ch pad (xs ++ ys) = enc32 ch pad xs ++ enc32 ch pad ys
  | 0, xs, ys, h => by rw [show xs = [] from List.length_eq_zero_iff.1 (by simpa using h)]; simp
  | k + 1, xs, ys, h => by
    match xs, h with
    | a :: b :: c :: d :: e :: r, h =>
      simp only [List.cons_append, enc32]
      rw [enc32_append ch pad k r ys (by simp at h; omega), List.append_assoc]

theorem enc32_app (ch pad) {xs ys : List Byte} (h : xs.length % 5 = 0) :
    enc32 ch pad (xs ++ ys) = enc32 ch pad xs ++ enc32 ch pad ys := enc32_append ch pad (xs.length / 5) xs ys (by omega)

theorem enc32_blocks (ch pad) : ∀ (k : Nat) (xs : List Byte), xs.length = 5 * k → enc32 ch pad xs = blocks 5 (encG ch) xs
  | 0, xs, h => by rw [show xs = [] from List.length_eq_zero_iff.1 (by simpa using h)]; simp
  | k + 1, xs, h => by
    match xs, h with
    | a :: b :: c :: d :: e :: r, h =>
      rw [enc32, enc32_blocks ch pad k r (by simp at h; omega)]
      rw [show a :: b :: c :: d :: e :: r = [a, b, c, d, e] ++ r from rfl, blocks_append (by omega) (k := 1) rfl (encG_loc ch),
        blocks_one (a := 5) (xs := [a, b, c, d, e]) (by omega) rfl]
      rfl

/-! ### RFC 4648 -/

/-- The `j`-th five-bit group of at most five bytes, in terms of the bytes. -/
theorem group5 (a b c d e : Byte) :
    (List.range 8).map (group 5 (bitString [a, b, c, d, e])) =
      [a.toNat / 8, a.toNat % 8 * 4 + b.toNat / 64, b.toNat / 2 % 32, b.toNat % 2 * 16 + c.toNat / 16,
       c.toNat % 16 * 2 + d.toNat / 128, d.toNat / 4 % 32, d.toNat % 4 * 8 + e.toNat / 32, e.toNat % 32] := by
  have q (x : Byte) (i) := (x.getLsbD i).toNat_lt
  have A := byte_bits a; have B := byte_bits b; have C := byte_bits c; have D := byte_bits d; have E := byte_bits e
  have a0 := q a 0; have a1 := q a 1; have a2 := q a 2; have a3 := q a 3; have a4 := q a 4; have a5 := q a 5; have a6 := q a 6; have a7 := q a 7
  have b0 := q b 0; have b1 := q b 1; have b2 := q b 2; have b3 := q b 3; have b4 := q b 4; have b5 := q b 5; have b6 := q b 6; have b7 := q b 7
  have c0 := q c 0; have c1 := q c 1; have c2 := q c 2; have c3 := q c 3; have c4 := q c 4; have c5 := q c 5; have c6 := q c 6; have c7 := q c 7
  have d0 := q d 0; have d1 := q d 1; have d2 := q d 2; have d3 := q d 3; have d4 := q d 4; have d5 := q d 5; have d6 := q d 6; have d7 := q d 7
  have e0 := q e 0; have e1 := q e 1; have e2 := q e 2; have e3 := q e 3; have e4 := q e 4; have e5 := q e 5; have e6 := q e 6; have e7 := q e 7
  clear q
  simp only [bitString, byteBits, group, natOfBits, List.range_succ, List.range_zero, List.flatMap_cons, List.flatMap_nil,
    List.map_cons, List.map_nil, List.foldl_cons, List.foldl_nil,
    List.cons_append, List.nil_append, Nat.reduceAdd, Nat.reduceMul, List.getD_cons_zero, List.getD_cons_succ]
  congr 1
  · clear B C D E; omega
  · congr 1
    · clear C D E; omega
    · congr 1
      · clear A C D E; omega
      · congr 1
        · clear A D E; omega
        · congr 1
          · clear A B E; omega
          · congr 1
            · clear A B C E; omega
            · congr 1
              · clear A B C; omega
              · congr 1
                clear A B C D; omega

theorem getD_zeros (bs : List Bool) (n i : Nat) : (bs ++ List.replicate n false).getD i false = bs.getD i false := by
  rw [List.getD_eq_getElem?_getD, List.getD_eq_getElem?_getD]
  by_cases h : i < bs.length
  · rw [List.getElem?_append_left h]
  · rw [List.getElem?_append_right (by omega), List.getElem?_eq_none (by omega : bs.length ≤ i), List.getElem?_replicate]
    split <;> rfl

/-- Zero bytes behind the end do not change a group. -/
theorem group_zeros (k : Nat) (bs : List Byte) (n j : Nat) : group k (bitString (bs ++ List.replicate n 0#8)) j = group k (bitString bs) j := by
  have : bitString (List.replicate n 0#8) = List.replicate (8 * n) false := by
    induction n with
    | zero => rfl
    | succ n ih => 
      rw [List.replicate_succ, show bitString (0#8 :: List.replicate n 0#8) = byteBits 0#8 ++ bitString (List.replicate n 0#8) by simp [bitString], ih,
        show byteBits 0#8 = List.replicate 8 false by decide, List.replicate_append_replicate, show 8 + 8 * n = 8 * (n + 1) by omega]
  unfold group
  congr 1
  apply List.map_congr_left
  intro i _
  rw [bitString_append, this, getD_zeros]

theorem text5 (ch) (a b c d e : Byte) : baseText 5 ch [a, b, c, d, e] = encG ch (fun i => [a, b, c, d, e].getD i 0#8) := by
  have := congrArg (List.map ch) (group5 a b c d e)
  rw [List.map_map] at this
  unfold baseText
  rw [show (8 * [a, b, c, d, e].length + 5 - 1) / 5 = 8 by simp]
  exact this

theorem textT (ch) (bs : List Byte) (n : Nat) (hn : n ≤ 8) (a b c d e : Byte) (hp : ∃ k, bs ++ List.replicate k 0#8 = [a, b, c, d, e])
    (hl : (8 * bs.length + 5 - 1) / 5 = n) (hg : encG ch (fun i => bs.getD i 0#8) = encG ch (fun i => [a, b, c, d, e].getD i 0#8)) :
    baseText 5 ch bs = encT ch false n bs := by
  obtain ⟨k, hp⟩ := hp
  have h := text5 ch a b c d e
  unfold encT
  rw [hg, ← h]
  unfold baseText
  rw [hl, show (8 * [a, b, c, d, e].length + 5 - 1) / 5 = 8 by simp, ← List.map_take, List.take_range, show min n 8 = n by omega]
  simp only [Bool.false_eq_true, if_false, List.append_nil]
  apply List.map_congr_left
  intro j _
  rw [← hp, group_zeros]

theorem baseText_eq (ch) : ∀ xs : List Byte, baseText 5 ch xs = enc32 ch false xs
  | a :: b :: c :: d :: e :: r => by
    rw [show a :: b :: c :: d :: e :: r = [a, b, c, d, e] ++ r from rfl, baseText_append (n := 8) (by omega) _ _ _ rfl, text5, baseText_eq ch r]; rfl
  | [a, b, c, d] => textT ch [a, b, c, d] 7 (by omega) a b c d 0#8 ⟨1, rfl⟩ (by simp) rfl
  | [a, b, c] => textT ch [a, b, c] 5 (by omega) a b c 0#8 0#8 ⟨2, rfl⟩ (by simp) rfl
  | [a, b] => textT ch [a, b] 4 (by omega) a b 0#8 0#8 0#8 ⟨3, rfl⟩ (by simp) rfl
  | [a] => textT ch [a] 2 (by omega) a 0#8 0#8 0#8 0#8 ⟨4, rfl⟩ (by simp) rfl
  | [] => rfl

theorem padTo_eq (ch) : ∀ xs : List Byte, padTo 8 (enc32 ch false xs) = enc32 ch true xs
  | a :: b :: c :: d :: e :: r => by rw [enc32, enc32, padTo_append (encG_length ..), padTo_eq ch r]
  | [a, b, c, d] => by simp [enc32, encT, encG, padTo]
  | [a, b, c] => by simp [enc32, encT, encG, padTo]
  | [a, b] => by simp [enc32, encT, encG, padTo]
  | [a] => by simp [enc32, encT, encG, padTo]
  | [] => by simp [padTo]

theorem base32_eq (hex pad xs) : base32 hex pad xs = enc32 (base32Char hex) pad xs := by
  cases pad
  · exact baseText_eq _ _
  · show padTo 8 _ = _
    rw [baseText_eq, padTo_eq]

/-! ### Decoding -/

/-- The five bytes of eight values below 32. -/
def decG (f : Nat → Byte) : List Byte :=
  [BitVec.ofNat 8 ((f 0).toNat * 8 + (f 1).toNat / 4), BitVec.ofNat 8 ((f 1).toNat % 4 * 64 + (f 2).toNat * 2 + (f 3).toNat / 16),
   BitVec.ofNat 8 ((f 3).toNat % 16 * 16 + (f 4).toNat / 2), BitVec.ofNat 8 ((f 4).toNat % 2 * 128 + (f 5).toNat * 4 + (f 6).toNat / 8),
   BitVec.ofNat 8 ((f 6).toNat % 8 * 32 + (f 7).toNat)]

/-- The bytes of the last characters: the first `m` bytes of the group filled with zeros; `t` is the number that must be zero. -/
def decT (val : Byte → Byte) (m : Nat) (t : Nat) (xs : List Byte) : Option (List Byte) :=
  if (∀ c ∈ xs, val c ≠ 255#8) ∧ t = 0 then some ((decG (fun i => (xs.map val).getD i 0#8)).take m) else none

def dec32 (val : Byte → Byte) : List Byte → Option (List Byte)
  | a :: b :: c :: d :: e :: f :: g :: h :: r => (decB val 8 decG [a, b, c, d, e, f, g, h]).bind fun u => (dec32 val r).map (u ++ ·)
  | [a, b, c, d, e, f, g] => decT val 4 ((val g).toNat % 8) [a, b, c, d, e, f, g]
  | [a, b, c, d, e] => decT val 3 ((val e).toNat % 2) [a, b, c, d, e]
  | [a, b, c, d] => decT val 2 ((val d).toNat % 16) [a, b, c, d]
  | [a, b] => decT val 1 ((val b).toNat % 4) [a, b]
  | [] => some []
  | [_] => none
  | [_, _, _] => none
  | [_, _, _, _, _, _] => none

theorem decG_length (f) : (decG f).length = 5 := rfl
theorem decG_loc (f f' : Nat → Byte) (h : ∀ r, r < 8 → f r = f' r) : decG f = decG f' := by
  simp [decG, h 0 (by omega), h 1 (by omega), h 2 (by omega), h 3 (by omega), h 4 (by omega), h 5 (by omega), h 6 (by omega), h 7 (by omega)]

/-- Number of bytes of `n` data characters. -/
def decLen (n : Nat) : Nat := n / 8 * 5 + (if n % 8 = 2 then 1 else if n % 8 = 4 then 2 else if n % 8 = 5 then 3 else if n % 8 = 7 then 4 else 0)

/-- The possible numbers of data characters. -/
def OkLen (n : Nat) : Prop := n % 8 ≠ 1 ∧ n % 8 ≠ 3 ∧ n % 8 ≠ 6

theorem decLen_add (k n : Nat) : decLen (n + 8 * k) = 5 * k + decLen n := by
  unfold decLen
  rw [show (n + 8 * k) % 8 = n % 8 by omega, show (n + 8 * k) / 8 = n / 8 + k by omega]
  omega

@[simp] theorem dec32_nil (val) : dec32 val [] = some [] := rfl

theorem decT_length {val m t xs ys} (h : decT val m t xs = some ys) (hm : m ≤ 5) : ys.length = m := by
  unfold decT at h
  split at h
  · simp only [Option.some.injEq] at h
    rw [← h, List.length_take, decG_length]; omega
  · simp at h

theorem dec32_length (val) : ∀ (xs ys : List Byte), dec32 val xs = some ys → ys.length = decLen xs.length
  | a :: b :: c :: d :: e :: f :: g :: h :: r, ys, he => by
    rw [dec32] at he
    cases h1 : decB val 8 decG [a, b, c, d, e, f, g, h] with
    | none => simp [h1] at he
    | some u =>
      cases h2 : dec32 val r with
      | none => simp [h1, h2] at he
      | some v =>
        simp [h1, h2] at he; subst he
        have e1 := decB_length decG_length h1
        have e2 := dec32_length val r v h2
        simp only [List.length_cons, List.length_nil, List.length_append] at e1 ⊢
        rw [e1, e2]; exact (decLen_add 1 r.length).symm
  | [a, b, c, d, e, f, g], ys, h => by rw [dec32] at h; rw [decT_length h (by omega)]; simp [decLen]
  | [_, _, _, _, _, _], ys, h => by rw [dec32] at h; simp at h
  | [a, b, c, d, e], ys, h => by rw [dec32] at h; rw [decT_length h (by omega)]; simp [decLen]
  | [a, b, c, d], ys, h => by rw [dec32] at h; rw [decT_length h (by omega)]; simp [decLen]
  | [_, _, _], ys, h => by rw [dec32] at h; simp at h
  | [a, b], ys, h => by rw [dec32] at h; rw [decT_length h (by omega)]; simp [decLen]
  | [_], ys, h => by rw [dec32] at h; simp at h
  | [], ys, h => by simp at h; subst h; rfl

/-- A text of an impossible length is rejected. -/
theorem dec32_bad (val) : ∀ (xs : List Byte), ¬ OkLen xs.length → dec32 val xs = none
  | a :: b :: c :: d :: e :: f :: g :: h :: r, hk => by
    rw [dec32, dec32_bad val r (by unfold OkLen at *; simp only [List.length_cons] at hk; omega)]
    cases decB val 8 decG [a, b, c, d, e, f, g, h] <;> rfl
  | [a, b, c, d, e, f, g], h => (h (by simp [OkLen])).elim
  | [_, _, _, _, _, _], h => by rw [dec32]
  | [a, b, c, d, e], h => (h (by simp [OkLen])).elim
  | [a, b, c, d], h => (h (by simp [OkLen])).elim
  | [_, _, _], h => by rw [dec32]
  | [a, b], h => (h (by simp [OkLen])).elim
  | [_], h => by rw [dec32]
  | [], h => (h (by simp [OkLen])).elim

theorem dec32_append (val) : ∀ (k : Nat) (xs ys : List Byte), xs.length = 8 * k →
    dec32 val (xs ++ ys) = (dec32 val xs).bind fun u => (dec32 val ys).map (u ++ ·)
  | 0, xs, ys, h => by rw [show xs = [] from List.length_eq_zero_iff.1 (by simpa using h)]; simp
  | k + 1, xs, ys, h => by
    match xs, h with
    | a :: b :: c :: d :: e :: f :: g :: h :: r, hl =>
      simp only [List.cons_append, dec32]
      rw [dec32_append val k r ys (by simp at hl; omega)]
      cases decB val 8 decG [a, b, c, d, e, f, g, h] <;> cases dec32 val r <;> cases dec32 val ys <;> simp

theorem dec32_app (val) {xs ys : List Byte} (h : xs.length % 8 = 0) :
    dec32 val (xs ++ ys) = (dec32 val xs).bind fun u => (dec32 val ys).map (u ++ ·) :=
  dec32_append val (xs.length / 8) xs ys (by omega)

theorem dec32_blocks (val) : ∀ (k : Nat) (xs : List Byte), xs.length = 8 * k → dec32 val xs = decB val 8 decG xs
  | 0, xs, h => by rw [show xs = [] from List.length_eq_zero_iff.1 (by simpa using h)]; simp
  | k + 1, xs, h => by
    match xs, h with
    | a :: b :: c :: d :: e :: f :: g :: h :: r, hl =>
      rw [dec32, dec32_blocks val k r (by simp at hl; omega)]
      rw [show a :: b :: c :: d :: e :: f :: g :: h :: r = [a, b, c, d, e, f, g, h] ++ r from rfl, decB_append (by omega) (k := 1) rfl decG_loc]

/-- `val` inverts the alphabet `ch`. -/
structure Inverse (ch : Nat → Byte) (val : Byte → Byte) : Prop where
  lt : ∀ c, val c ≠ 255#8 → (val c).toNat < 32
  left : ∀ c, val c ≠ 255#8 → ch (val c).toNat = c
  right : ∀ v, v < 32 → (val (ch v)).toNat = v

theorem Inverse.ne {ch val} (h : Inverse ch val) {v} (hv : v < 32) : val (ch v) ≠ 255#8 := by
  intro e
  have := h.right v hv
  rw [e] at this; simp at this; omega

theorem decB8_some {val : Byte → Byte} {xs ys : List Byte} (hl : xs.length = 8) :
    decB val 8 decG xs = some ys ↔ (∀ c ∈ xs, val c ≠ 255#8) ∧ ys = decG (fun i => (xs.map val).getD i 0#8) := by
  unfold decB
  simp only [List.all_eq_true, bne_iff_ne, ne_eq]
  split
  · rename_i h
    rw [Option.some.injEq, blocks_one (a := 8) (by omega) (by simpa using hl)]
    exact ⟨fun e => ⟨h, e.symm⟩, fun e => e.2.symm⟩
  · rename_i h
    simp only [reduceCtorEq, false_iff]
    exact fun e => h e.1

theorem ch_eq {ch val} (h : Inverse ch val) {c : Byte} (hc : val c ≠ 255#8) {v : Nat} (e : v = (val c).toNat) : ch v = c := by
  rw [e, h.left c hc]

/-- A text is accepted only if it is the encoding of the result. -/
theorem enc_of_dec {ch val} (h : Inverse ch val) : ∀ (xs ys : List Byte), dec32 val xs = some ys → enc32 ch false ys = xs
  | a :: b :: c :: d :: e :: f :: g :: i :: r, ys, he => by
    rw [dec32] at he
    cases h1 : decB val 8 decG [a, b, c, d, e, f, g, i] with
    | none => simp [h1] at he
    | some u =>
      cases h2 : dec32 val r with
      | none => simp [h1, h2] at he
      | some v =>
        simp [h1, h2] at he; subst he
        obtain ⟨hv, rfl⟩ := (decB8_some rfl).1 h1
        have ih := enc_of_dec h r v h2
        have va := hv a (by simp); have vb := hv b (by simp); have vc := hv c (by simp); have vd := hv d (by simp)
        have ve := hv e (by simp); have vf := hv f (by simp); have vg := hv g (by simp); have vi := hv i (by simp)
        have la := h.lt a va; have lb := h.lt b vb; have lc := h.lt c vc; have ld := h.lt d vd
        have le := h.lt e ve; have lf := h.lt f vf; have lg := h.lt g vg; have li := h.lt i vi
        simp only [decG, List.cons_append, List.nil_append, enc32, encG, ih, List.getD_cons_zero, List.getD_cons_succ, BitVec.toNat_ofNat,
          List.map_cons, List.map_nil]
        rw [ch_eq h va (by omega), ch_eq h vb (by omega), ch_eq h vc (by omega), ch_eq h vd (by omega),
          ch_eq h ve (by omega), ch_eq h vf (by omega), ch_eq h vg (by omega), ch_eq h vi (by omega)]
  | [a, b, c, d, e, f, g], ys, he => by
    simp only [dec32, decT] at he; split at he
    · rename_i hc
      obtain ⟨hv, hz⟩ := hc
      simp only [Option.some.injEq] at he; subst he
      have va := hv a (by simp); have vb := hv b (by simp); have vc := hv c (by simp); have vd := hv d (by simp)
      have ve := hv e (by simp); have vf := hv f (by simp); have vg := hv g (by simp)
      have la := h.lt a va; have lb := h.lt b vb; have lc := h.lt c vc; have ld := h.lt d vd
      have le := h.lt e ve; have lf := h.lt f vf; have lg := h.lt g vg
      simp only [decG, List.take_succ_cons, List.take_zero, enc32, encT, encG, List.getD_cons_zero, List.getD_cons_succ, List.getD_nil, BitVec.toNat_ofNat,
          List.map_cons, List.map_nil, Bool.false_eq_true, if_false, List.append_nil]
      rw [ch_eq h va (by omega), ch_eq h vb (by omega), ch_eq h vc (by omega), ch_eq h vd (by omega),
          ch_eq h ve (by omega), ch_eq h vf (by omega), ch_eq h vg (by omega)]
    · simp at he
  | [_, _, _, _, _, _], ys, he => by rw [dec32] at he; simp at he
  | [a, b, c, d, e], ys, he => by
    simp only [dec32, decT] at he; split at he
    · rename_i hc
      obtain ⟨hv, hz⟩ := hc
      simp only [Option.some.injEq] at he; subst he
      have va := hv a (by simp); have vb := hv b (by simp); have vc := hv c (by simp); have vd := hv d (by simp)
      have ve := hv e (by simp)
      have la := h.lt a va; have lb := h.lt b vb; have lc := h.lt c vc; have ld := h.lt d vd
      have le := h.lt e ve
      simp only [decG, List.take_succ_cons, List.take_zero, enc32, encT, encG, List.getD_cons_zero, List.getD_cons_succ, List.getD_nil, BitVec.toNat_ofNat,
          List.map_cons, List.map_nil, Bool.false_eq_true, if_false, List.append_nil]
      rw [ch_eq h va (by omega), ch_eq h vb (by omega), ch_eq h vc (by omega), ch_eq h vd (by omega),
          ch_eq h ve (by omega)]
    · simp at he
  | [a, b, c, d], ys, he => by
    simp only [dec32, decT] at he; split at he
    · rename_i hc
      obtain ⟨hv, hz⟩ := hc
      simp only [Option.some.injEq] at he; subst he
      have va := hv a (by simp); have vb := hv b (by simp); have vc := hv c (by simp); have vd := hv d (by simp)
      have la := h.lt a va; have lb := h.lt b vb; have lc := h.lt c vc; have ld := h.lt d vd
      simp only [decG, List.take_succ_cons, List.take_zero, enc32, encT, encG, List.getD_cons_zero, List.getD_cons_succ, List.getD_nil, BitVec.toNat_ofNat,
          List.map_cons, List.map_nil, Bool.false_eq_true, if_false, List.append_nil]
      rw [ch_eq h va (by omega), ch_eq h vb (by omega), ch_eq h vc (by omega), ch_eq h vd (by omega)]
    · simp at he
  | [_, _, _], ys, he => by rw [dec32] at he; simp at he
  | [a, b], ys, he => by
    simp only [dec32, decT] at he; split at he
    · rename_i hc
      obtain ⟨hv, hz⟩ := hc
      simp only [Option.some.injEq] at he; subst he
      have va := hv a (by simp); have vb := hv b (by simp)
      have la := h.lt a va; have lb := h.lt b vb
      simp only [decG, List.take_succ_cons, List.take_zero, enc32, encT, encG, List.getD_cons_zero, List.getD_cons_succ, List.getD_nil, BitVec.toNat_ofNat,
          List.map_cons, List.map_nil, Bool.false_eq_true, if_false, List.append_nil]
      rw [ch_eq h va (by omega), ch_eq h vb (by omega)]
    · simp at he
  | [_], ys, he => by rw [dec32] at he; simp at he
  | [], ys, h => by simp at h; subst h; rfl

/-- Every encoding is accepted, with the original bytes. -/
theorem dec_of_enc {ch val} (h : Inverse ch val) : ∀ ys : List Byte, dec32 val (enc32 ch false ys) = some ys
  | a :: b :: c :: d :: e :: r => by
    have ha := a.isLt; have hb := b.isLt; have hc := c.isLt; have hd := d.isLt; have he := e.isLt
    simp only [enc32, encG, List.cons_append, List.nil_append, dec32, List.getD_cons_zero, List.getD_cons_succ]
    rw [dec_of_enc h r, (decB8_some rfl).2 ⟨?_, rfl⟩]
    · simp only [decG, Option.bind_some, Option.map_some, Option.some.injEq, List.cons_append, List.nil_append,
        List.getD_cons_zero, List.getD_cons_succ, List.map_cons, List.map_nil]
      rw [h.right _ (by omega), h.right _ (by omega), h.right _ (by omega), h.right _ (by omega),
        h.right _ (by omega), h.right _ (by omega), h.right _ (by omega), h.right _ (by omega)]
      congr 1
      · apply BitVec.eq_of_toNat_eq; rw [BitVec.toNat_ofNat]; omega
      · congr 1
        · apply BitVec.eq_of_toNat_eq; rw [BitVec.toNat_ofNat]; omega
        · congr 1
          · apply BitVec.eq_of_toNat_eq; rw [BitVec.toNat_ofNat]; omega
          · congr 1
            · apply BitVec.eq_of_toNat_eq; rw [BitVec.toNat_ofNat]; omega
            · congr 1
              apply BitVec.eq_of_toNat_eq; rw [BitVec.toNat_ofNat]; omega
    · simp only [List.forall_mem_cons]
      exact ⟨h.ne (by omega), h.ne (by omega), h.ne (by omega), h.ne (by omega), h.ne (by omega), h.ne (by omega), h.ne (by omega), h.ne (by omega), by simp⟩
  | [a, b, c, d] => by
    have ha := a.isLt; have hb := b.isLt; have hc := c.isLt; have hd := d.isLt
    simp only [enc32, encT, encG, Bool.false_eq_true, if_false, List.append_nil, List.take_succ_cons, List.take_zero, dec32, decT,
      List.getD_cons_zero, List.getD_cons_succ, List.getD_nil, List.forall_mem_cons]
    rw [if_pos ⟨⟨h.ne (by omega), h.ne (by omega), h.ne (by omega), h.ne (by omega), h.ne (by omega), h.ne (by omega), h.ne (by simp; omega), by simp⟩, by
      rw [h.right _ (by simp; omega)]; simp⟩]
    simp only [decG, List.take_succ_cons, List.take_zero,
        List.getD_cons_zero, List.getD_cons_succ, List.map_cons, List.map_nil]
    rw [h.right _ (by omega), h.right _ (by omega), h.right _ (by omega), h.right _ (by omega),
      h.right _ (by omega), h.right _ (by omega), h.right _ (by simp; omega)]
    congr 1
    congr 1
    · apply BitVec.eq_of_toNat_eq; rw [BitVec.toNat_ofNat]; omega
    · congr 1
      · apply BitVec.eq_of_toNat_eq; rw [BitVec.toNat_ofNat]; omega
      · congr 1
        · apply BitVec.eq_of_toNat_eq; rw [BitVec.toNat_ofNat]; omega
        · congr 1
          apply BitVec.eq_of_toNat_eq; rw [BitVec.toNat_ofNat]; simp; omega
  | [a, b, c] => by
    have ha := a.isLt; have hb := b.isLt; have hc := c.isLt
    simp only [enc32, encT, encG, Bool.false_eq_true, if_false, List.append_nil, List.take_succ_cons, List.take_zero, dec32, decT,
      List.getD_cons_zero, List.getD_cons_succ, List.getD_nil, List.forall_mem_cons]
    rw [if_pos ⟨⟨h.ne (by omega), h.ne (by omega), h.ne (by omega), h.ne (by omega), h.ne (by simp; omega), by simp⟩, by
      rw [h.right _ (by simp; omega)]; simp⟩]
    simp only [decG, List.take_succ_cons, List.take_zero,
        List.getD_cons_zero, List.getD_cons_succ, List.map_cons, List.map_nil]
    rw [h.right _ (by omega), h.right _ (by omega), h.right _ (by omega), h.right _ (by omega),
      h.right _ (by simp; omega)]
    congr 1
    congr 1
    · apply BitVec.eq_of_toNat_eq; rw [BitVec.toNat_ofNat]; omega
    · congr 1
      · apply BitVec.eq_of_toNat_eq; rw [BitVec.toNat_ofNat]; omega
      · congr 1
        apply BitVec.eq_of_toNat_eq; rw [BitVec.toNat_ofNat]; simp; omega
  | [a, b] => by
    have ha := a.isLt; have hb := b.isLt
    simp only [enc32, encT, encG, Bool.false_eq_true, if_false, List.append_nil, List.take_succ_cons, List.take_zero, dec32, decT,
      List.getD_cons_zero, List.getD_cons_succ, List.getD_nil, List.forall_mem_cons]
    rw [if_pos ⟨⟨h.ne (by omega), h.ne (by omega), h.ne (by omega), h.ne (by simp; omega), by simp⟩, by
      rw [h.right _ (by simp; omega)]; simp⟩]
    simp only [decG, List.take_succ_cons, List.take_zero,
        List.getD_cons_zero, List.getD_cons_succ, List.map_cons, List.map_nil]
    rw [h.right _ (by omega), h.right _ (by omega), h.right _ (by omega), h.right _ (by simp; omega)]
    congr 1
    congr 1
    · apply BitVec.eq_of_toNat_eq; rw [BitVec.toNat_ofNat]; omega
    · congr 1
      apply BitVec.eq_of_toNat_eq; rw [BitVec.toNat_ofNat]; simp; omega
  | [a] => by
    have ha := a.isLt
    simp only [enc32, encT, encG, Bool.false_eq_true, if_false, List.append_nil, List.take_succ_cons, List.take_zero, dec32, decT,
      List.getD_cons_zero, List.getD_cons_succ, List.getD_nil, List.forall_mem_cons]
    rw [if_pos ⟨⟨h.ne (by omega), h.ne (by simp; omega), by simp⟩, by
      rw [h.right _ (by simp; omega)]; simp⟩]
    simp only [decG, List.take_succ_cons, List.take_zero,
        List.getD_cons_zero, List.getD_cons_succ, List.map_cons, List.map_nil]
    rw [h.right _ (by omega), h.right _ (by simp; omega)]
    congr 1
    congr 1
    apply BitVec.eq_of_toNat_eq; rw [BitVec.toNat_ofNat]; simp; omega
  | [] => rfl

theorem dec_iff_enc {ch val} (h : Inverse ch val) {xs ys : List Byte} :
    dec32 val xs = some ys ↔ enc32 ch false ys = xs :=
  ⟨enc_of_dec h xs ys, fun e => e ▸ dec_of_enc h ys⟩

end Simd.Base32
