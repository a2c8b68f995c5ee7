import Verif.Lemmas.Rfc
/-
Base64 on byte groups: `enc64`, `dec64`, their relation to RFC 4648 and to each other.
-/
namespace Simd.Base64
open Spec

/-- The four characters of three bytes. -/
def encG (ch : Nat → Byte) (f : Nat → Byte) : List Byte :=
  [ch ((f 0).toNat / 4), ch ((f 0).toNat % 4 * 16 + (f 1).toNat / 16),
   ch ((f 1).toNat % 16 * 4 + (f 2).toNat / 64), ch ((f 2).toNat % 64)]

/-- The characters of the last one or two bytes. -/
def encT1 (ch : Nat → Byte) (pad : Bool) (a : Byte) : List Byte :=
  [ch (a.toNat / 4), ch (a.toNat % 4 * 16)] ++ if pad then [0x3d#8, 0x3d#8] else []
def encT2 (ch : Nat → Byte) (pad : Bool) (a b : Byte) : List Byte :=
  [ch (a.toNat / 4), ch (a.toNat % 4 * 16 + b.toNat / 16), ch (b.toNat % 16 * 4)] ++ if pad then [0x3d#8] else []

def enc64 (ch : Nat → Byte) (pad : Bool) : List Byte → List Byte
  | a :: b :: c :: r => encG ch (fun i => [a, b, c].getD i 0) ++ enc64 ch pad r
  | [a, b] => encT2 ch pad a b
  | [a] => encT1 ch pad a
  | [] => []

theorem encG_length (ch f) : (encG ch f).length = 4 := rfl
theorem encG_loc (ch) (f f' : Nat → Byte) (h : ∀ r, r < 3 → f r = f' r) : encG ch f = encG ch f' := by
  simp [encG, h 0 (by omega), h 1 (by omega), h 2 (by omega)]

/-- Length of the encoding of `n` bytes. -/
def encLen (pad : Bool) (n : Nat) : Nat :=
  if n % 3 = 0 then n / 3 * 4 else if pad then n / 3 * 4 + 4 else n / 3 * 4 + n % 3 + 1

theorem enc64_length (ch pad xs) : (enc64 ch pad xs).length = encLen pad xs.length := by
  match xs with
  | a :: b :: c :: r =>
    rw [enc64, List.length_append, encG_length, enc64_length ch pad r]
    simp only [encLen, List.length_cons]
    rw [show (r.length + 1 + 1 + 1) % 3 = r.length % 3 by omega, show (r.length + 1 + 1 + 1) / 3 = r.length / 3 + 1 by omega]
    split
    · omega
    · split <;> omega
  | [a, b] => cases pad <;> simp [enc64, encT2, encLen]
  | [a] => cases pad <;> simp [enc64, encT1, encLen]
  | [] => rfl

@[simp] theorem enc64_nil (ch pad) : enc64 ch pad [] = [] := rfl

theorem enc64_append (ch pad) : ∀ (k : Nat) (xs ys : List Byte), xs.length = 3 * k →
    enc64 ch pad (xs ++ ys) = enc64 ch pad xs ++ enc64 ch pad ys
  | 0, xs, ys, h => by rw [show xs = [] from List.length_eq_zero_iff.1 (by simpa using h)]; simp
  | k + 1, xs, ys, h => by
    match xs, h with
    | a :: b :: c :: r, h =>
      simp only [List.cons_append, enc64]
      rw [enc64_append ch pad k r ys (by simp at h; omega), List.append_assoc]

theorem enc64_app (ch pad) {xs ys : List Byte} (h : xs.length % 3 = 0) :
    enc64 ch pad (xs ++ ys) = enc64 ch pad xs ++ enc64 ch pad ys := enc64_append ch pad (xs.length / 3) xs ys (by omega)

theorem enc64_blocks (ch pad) : ∀ (k : Nat) (xs : List Byte), xs.length = 3 * k → enc64 ch pad xs = blocks 3 (encG ch) xs
  | 0, xs, h => by rw [show xs = [] from List.length_eq_zero_iff.1 (by simpa using h)]; simp
  | k + 1, xs, h => by
    match xs, h with
    | a :: b :: c :: r, h =>
      rw [enc64, enc64_blocks ch pad k r (by simp at h; omega)]
      rw [show a :: b :: c :: r = [a, b, c] ++ r from rfl, blocks_append (by omega) (k := 1) rfl (encG_loc ch),
        blocks_one (a := 3) (xs := [a, b, c]) (by omega) rfl]

/-! ### RFC 4648 -/

theorem text3 (ch) (a b c : Byte) : baseText 6 ch [a, b, c] = encG ch (fun i => [a, b, c].getD i 0) := by
  have ha := byte_bits a; have hb := byte_bits b; have hc := byte_bits c
  have q0 (i) := (a.getLsbD i).toNat_lt
  have q1 (i) := (b.getLsbD i).toNat_lt
  have q2 (i) := (c.getLsbD i).toNat_lt
  have a0 := q0 0; have a1 := q0 1; have a2 := q0 2; have a3 := q0 3; have a4 := q0 4; have a5 := q0 5; have a6 := q0 6; have a7 := q0 7
  have b0 := q1 0; have b1 := q1 1; have b2 := q1 2; have b3 := q1 3; have b4 := q1 4; have b5 := q1 5; have b6 := q1 6; have b7 := q1 7
  have c0 := q2 0; have c1 := q2 1; have c2 := q2 2; have c3 := q2 3; have c4 := q2 4; have c5 := q2 5; have c6 := q2 6; have c7 := q2 7
  simp only [baseText, encG, bitString, byteBits, group, natOfBits, List.range_succ, List.range_zero, List.flatMap_cons, List.flatMap_nil,
    List.map_cons, List.map_nil, List.foldl_cons, List.foldl_nil, List.length_cons, List.length_nil,
    List.cons_append, List.nil_append, Nat.reduceAdd, Nat.reduceMul, Nat.reduceSub, Nat.reduceDiv, List.getD_cons_zero, List.getD_cons_succ]
  congr 1
  · congr 1; omega
  · congr 1
    · congr 1; omega
    · congr 1
      · congr 1; omega
      · congr 1; congr 1; omega

theorem text1 (ch) (a : Byte) : baseText 6 ch [a] = encT1 ch false a := by
  have ha := byte_bits a
  have q0 (i) := (a.getLsbD i).toNat_lt
  have a0 := q0 0; have a1 := q0 1; have a2 := q0 2; have a3 := q0 3; have a4 := q0 4; have a5 := q0 5; have a6 := q0 6; have a7 := q0 7
  simp only [baseText, encT1, bitString, byteBits, group, natOfBits, List.range_succ, List.range_zero, List.flatMap_cons, List.flatMap_nil,
    List.map_cons, List.map_nil, List.foldl_cons, List.foldl_nil, List.length_cons, List.length_nil,
    List.cons_append, List.nil_append, Nat.reduceAdd, Nat.reduceMul, Nat.reduceSub, Nat.reduceDiv, List.getD_cons_zero, List.getD_cons_succ,
    List.getD_nil, Bool.toNat_false, Bool.false_eq_true, if_false]
  congr 1
  · congr 1; omega
  · congr 1; congr 1; omega

theorem text2 (ch) (a b : Byte) : baseText 6 ch [a, b] = encT2 ch false a b := by
  have ha := byte_bits a; have hb := byte_bits b
  have q0 (i) := (a.getLsbD i).toNat_lt
  have q1 (i) := (b.getLsbD i).toNat_lt
  have a0 := q0 0; have a1 := q0 1; have a2 := q0 2; have a3 := q0 3; have a4 := q0 4; have a5 := q0 5; have a6 := q0 6; have a7 := q0 7
  have b0 := q1 0; have b1 := q1 1; have b2 := q1 2; have b3 := q1 3; have b4 := q1 4; have b5 := q1 5; have b6 := q1 6; have b7 := q1 7
  simp only [baseText, encT2, bitString, byteBits, group, natOfBits, List.range_succ, List.range_zero, List.flatMap_cons, List.flatMap_nil,
    List.map_cons, List.map_nil, List.foldl_cons, List.foldl_nil, List.length_cons, List.length_nil,
    List.cons_append, List.nil_append, Nat.reduceAdd, Nat.reduceMul, Nat.reduceSub, Nat.reduceDiv, List.getD_cons_zero, List.getD_cons_succ,
    List.getD_nil, Bool.toNat_false, Bool.false_eq_true, if_false]
  congr 1
  · congr 1; omega
  · congr 1
    · congr 1; omega
    · congr 1; congr 1; omega

theorem baseText_eq (ch) : ∀ xs : List Byte, baseText 6 ch xs = enc64 ch false xs
  | a :: b :: c :: r => by
    rw [show a :: b :: c :: r = [a, b, c] ++ r from rfl, baseText_append (n := 4) (by omega) _ _ _ rfl, text3, baseText_eq ch r]; rfl
  | [a, b] => text2 ch a b
  | [a] => text1 ch a
  | [] => rfl

theorem padTo_eq (ch) : ∀ xs : List Byte, padTo 4 (enc64 ch false xs) = enc64 ch true xs
  | a :: b :: c :: r => by rw [enc64, enc64, padTo_append (encG_length ..), padTo_eq ch r]
  | [a, b] => by simp [enc64, encT2, padTo]
  | [a] => by simp [enc64, encT1, padTo]
  | [] => by simp [padTo]

theorem base64_eq (url pad xs) : base64 url pad xs = enc64 (base64Char url) pad xs := by
  cases pad
  · exact baseText_eq _ _
  · show padTo 4 _ = _
    rw [baseText_eq, padTo_eq]

/-! ### Decoding -/

/-- The three bytes of four values below 64. -/
def decG (f : Nat → Byte) : List Byte :=
  [BitVec.ofNat 8 ((f 0).toNat * 4 + (f 1).toNat / 16), BitVec.ofNat 8 ((f 1).toNat % 16 * 16 + (f 2).toNat / 4),
   BitVec.ofNat 8 ((f 2).toNat % 4 * 64 + (f 3).toNat)]

def decT2 (val : Byte → Byte) (fg : Bool) (a b : Byte) : Option (List Byte) :=
  if val a ≠ 255#8 ∧ val b ≠ 255#8 ∧ (fg = true ∨ (val b).toNat % 16 = 0) then
    some [BitVec.ofNat 8 ((val a).toNat * 4 + (val b).toNat / 16)] else none
def decT3 (val : Byte → Byte) (fg : Bool) (a b c : Byte) : Option (List Byte) :=
  if val a ≠ 255#8 ∧ val b ≠ 255#8 ∧ val c ≠ 255#8 ∧ (fg = true ∨ (val c).toNat % 4 = 0) then
    some [BitVec.ofNat 8 ((val a).toNat * 4 + (val b).toNat / 16), BitVec.ofNat 8 ((val b).toNat % 16 * 16 + (val c).toNat / 4)] else none

def dec64 (val : Byte → Byte) (fg : Bool) : List Byte → Option (List Byte)
  | a :: b :: c :: d :: r => (decB val 4 decG [a, b, c, d]).bind fun u => (dec64 val fg r).map (u ++ ·)
  | [a, b, c] => decT3 val fg a b c
  | [a, b] => decT2 val fg a b
  | [_] => none
  | [] => some []

theorem decG_length (f) : (decG f).length = 3 := rfl
theorem decG_loc (f f' : Nat → Byte) (h : ∀ r, r < 4 → f r = f' r) : decG f = decG f' := by
  simp [decG, h 0 (by omega), h 1 (by omega), h 2 (by omega), h 3 (by omega)]

/-- Number of bytes of `n` data characters. -/
def decLen (n : Nat) : Nat := n / 4 * 3 + (if n % 4 = 2 then 1 else if n % 4 = 3 then 2 else 0)

@[simp] theorem dec64_nil (val fg) : dec64 val fg [] = some [] := rfl

theorem dec64_length (val fg) : ∀ (xs ys : List Byte), dec64 val fg xs = some ys → ys.length = decLen xs.length
  | a :: b :: c :: d :: r, ys, h => by
    rw [dec64] at h
    cases h1 : decB val 4 decG [a, b, c, d] with
    | none => simp [h1] at h
    | some u =>
      cases h2 : dec64 val fg r with
      | none => simp [h1, h2] at h
      | some v =>
        simp [h1, h2] at h; subst h
        have e1 := decB_length decG_length h1
        have e2 := dec64_length val fg r v h2
        simp only [List.length_cons, List.length_nil, List.length_append] at e1 ⊢
        rw [e1, e2]; unfold decLen
        rw [show (r.length + 1 + 1 + 1 + 1) % 4 = r.length % 4 by omega]
        omega
  | [a, b, c], ys, h => by
    simp only [dec64, decT3] at h; split at h
    · simp at h; subst h; simp [decLen]
    · simp at h
  | [a, b], ys, h => by
    simp only [dec64, decT2] at h; split at h
    · simp at h; subst h; simp [decLen]
    · simp at h
  | [_], ys, h => by simp [dec64] at h
  | [], ys, h => by simp at h; subst h; rfl

theorem dec64_append (val fg) : ∀ (k : Nat) (xs ys : List Byte), xs.length = 4 * k →
    dec64 val fg (xs ++ ys) = (dec64 val fg xs).bind fun u => (dec64 val fg ys).map (u ++ ·)
  | 0, xs, ys, h => by rw [show xs = [] from List.length_eq_zero_iff.1 (by simpa using h)]; simp
  | k + 1, xs, ys, h => by
    match xs, h with
    | a :: b :: c :: d :: r, h =>
      simp only [List.cons_append, dec64]
      rw [dec64_append val fg k r ys (by simp at h; omega)]
      cases decB val 4 decG [a, b, c, d] <;> cases dec64 val fg r <;> cases dec64 val fg ys <;> simp

theorem dec64_app (val fg) {xs ys : List Byte} (h : xs.length % 4 = 0) :
    dec64 val fg (xs ++ ys) = (dec64 val fg xs).bind fun u => (dec64 val fg ys).map (u ++ ·) :=
  dec64_append val fg (xs.length / 4) xs ys (by omega)

theorem dec64_blocks (val fg) : ∀ (k : Nat) (xs : List Byte), xs.length = 4 * k → dec64 val fg xs = decB val 4 decG xs
  | 0, xs, h => by rw [show xs = [] from List.length_eq_zero_iff.1 (by simpa using h)]; simp
  | k + 1, xs, h => by
    match xs, h with
    | a :: b :: c :: d :: r, h =>
      rw [dec64, dec64_blocks val fg k r (by simp at h; omega)]
      rw [show a :: b :: c :: d :: r = [a, b, c, d] ++ r from rfl, decB_append (by omega) (k := 1) rfl decG_loc]

/-- `val` inverts the alphabet `ch`. -/
structure Inverse (ch : Nat → Byte) (val : Byte → Byte) : Prop where
  lt : ∀ c, val c ≠ 255#8 → (val c).toNat < 64
  left : ∀ c, val c ≠ 255#8 → ch (val c).toNat = c
  right : ∀ v, v < 64 → (val (ch v)).toNat = v

theorem Inverse.ne {ch val} (h : Inverse ch val) {v} (hv : v < 64) : val (ch v) ≠ 255#8 := by
  intro e
  have := h.right v hv
  rw [e] at this; simp at this; omega

theorem decB4_some {val : Byte → Byte} {a b c d : Byte} {ys} :
    decB val 4 decG [a, b, c, d] = some ys ↔
      (val a ≠ 255#8 ∧ val b ≠ 255#8 ∧ val c ≠ 255#8 ∧ val d ≠ 255#8) ∧ ys = decG (fun i => [val a, val b, val c, val d].getD i 0) := by
  unfold decB
  simp only [List.all_cons, List.all_nil, Bool.and_true, Bool.and_eq_true, bne_iff_ne, List.map_cons, List.map_nil]
  split
  · rename_i h
    rw [Option.some.injEq, blocks_one (a := 4) (by omega) rfl]
    exact ⟨fun e => ⟨h, e.symm⟩, fun e => e.2.symm⟩
  · rename_i h
    simp only [reduceCtorEq, false_iff]
    exact fun e => h e.1

/-- A text is accepted only if it is the encoding of the result. -/
theorem enc_of_dec {ch val} (h : Inverse ch val) : ∀ (xs ys : List Byte), dec64 val false xs = some ys → enc64 ch false ys = xs
  | a :: b :: c :: d :: r, ys, he => by
    rw [dec64] at he
    cases h1 : decB val 4 decG [a, b, c, d] with
    | none => simp [h1] at he
    | some u =>
      cases h2 : dec64 val false r with
      | none => simp [h1, h2] at he
      | some v =>
        simp [h1, h2] at he; subst he
        obtain ⟨⟨va, vb, vc, vd⟩, rfl⟩ := decB4_some.1 h1
        have ih := enc_of_dec h r v h2
        have la := h.lt a va; have lb := h.lt b vb; have lc := h.lt c vc; have ld := h.lt d vd
        simp only [decG, List.cons_append, List.nil_append, enc64, encG, ih, List.getD_cons_zero, List.getD_cons_succ, BitVec.toNat_ofNat]
        congr 1
        · rw [← h.left a va]; congr 1; rw [h.left a va]; omega
        · congr 1
          · rw [← h.left b vb]; congr 1; rw [h.left b vb]; omega
          · congr 1
            · rw [← h.left c vc]; congr 1; rw [h.left c vc]; omega
            · congr 1
              rw [← h.left d vd]; congr 1; rw [h.left d vd]; omega
  | [a, b, c], ys, he => by
    simp only [dec64, decT3] at he; split at he
    · rename_i hc
      obtain ⟨va, vb, vc, hz⟩ := hc
      simp only [Bool.false_eq_true, false_or] at hz
      simp only [Option.some.injEq] at he; subst he
      have la := h.lt a va; have lb := h.lt b vb; have lc := h.lt c vc
      simp only [enc64, encT2, BitVec.toNat_ofNat, Bool.false_eq_true, if_false, List.append_nil]
      congr 1
      · rw [← h.left a va]; congr 1; rw [h.left a va]; omega
      · congr 1
        · rw [← h.left b vb]; congr 1; rw [h.left b vb]; omega
        · congr 1
          rw [← h.left c vc]; congr 1; rw [h.left c vc]; omega
    · simp at he
  | [a, b], ys, he => by
    simp only [dec64, decT2] at he; split at he
    · rename_i hc
      obtain ⟨va, vb, hz⟩ := hc
      simp only [Bool.false_eq_true, false_or] at hz
      simp only [Option.some.injEq] at he; subst he
      have la := h.lt a va; have lb := h.lt b vb
      simp only [enc64, encT1, BitVec.toNat_ofNat, Bool.false_eq_true, if_false, List.append_nil]
      congr 1
      · rw [← h.left a va]; congr 1; rw [h.left a va]; omega
      · congr 1
        rw [← h.left b vb]; congr 1; rw [h.left b vb]; omega
    · simp at he
  | [_], ys, h => by simp [dec64] at h
  | [], ys, h => by simp at h; subst h; rfl

/-- Every encoding is accepted, with the original bytes. -/
theorem dec_of_enc {ch val} (h : Inverse ch val) (fg) : ∀ ys : List Byte, dec64 val fg (enc64 ch false ys) = some ys
  | a :: b :: c :: r => by
    have ha := a.isLt; have hb := b.isLt; have hc := c.isLt
    simp only [enc64, encG, List.cons_append, List.nil_append, dec64, List.getD_cons_zero, List.getD_cons_succ]
    rw [dec_of_enc h fg r, decB4_some.2 ⟨⟨h.ne (by omega), h.ne (by omega), h.ne (by omega), h.ne (by omega)⟩, rfl⟩]
    simp only [decG, Option.bind_some, Option.map_some, Option.some.injEq, List.cons_append, List.nil_append,
      List.getD_cons_zero, List.getD_cons_succ]
    rw [h.right _ (by omega), h.right _ (by omega), h.right _ (by omega), h.right _ (by omega)]
    congr 1
    · apply BitVec.eq_of_toNat_eq; rw [BitVec.toNat_ofNat]; omega
    · congr 1
      · apply BitVec.eq_of_toNat_eq; rw [BitVec.toNat_ofNat]; omega
      · congr 1
        apply BitVec.eq_of_toNat_eq; rw [BitVec.toNat_ofNat]; omega
  | [a, b] => by
    have ha := a.isLt; have hb := b.isLt
    simp only [enc64, encT2, Bool.false_eq_true, if_false, List.append_nil, dec64, decT3]
    rw [h.right _ (by omega), h.right _ (by omega), h.right _ (by omega),
      if_pos ⟨h.ne (by omega), h.ne (by omega), h.ne (by omega), .inr (by omega)⟩]
    congr 1; congr 1
    · apply BitVec.eq_of_toNat_eq; rw [BitVec.toNat_ofNat]; omega
    · congr 1
      apply BitVec.eq_of_toNat_eq; rw [BitVec.toNat_ofNat]; omega
  | [a] => by
    have ha := a.isLt
    simp only [enc64, encT1, Bool.false_eq_true, if_false, List.append_nil, dec64, decT2]
    rw [h.right _ (by omega), h.right _ (by omega), if_pos ⟨h.ne (by omega), h.ne (by omega), .inr (by omega)⟩]
    congr 1; congr 1
    apply BitVec.eq_of_toNat_eq; rw [BitVec.toNat_ofNat]; omega
  | [] => rfl

theorem dec_iff_enc {ch val} (h : Inverse ch val) {xs ys : List Byte} :
    dec64 val false xs = some ys ↔ enc64 ch false ys = xs :=
  ⟨enc_of_dec h xs ys, fun e => e ▸ dec_of_enc h false ys⟩

end Simd.Base64
