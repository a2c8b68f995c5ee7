import Verif.Lemmas.Base32Encode
import Verif.Lemmas.Base64Decode
/-
Every implementation of base32 decoding computes `dec32`.
-/
namespace Simd.Base32
open Vs IsaId Intrin
open Base64 (ofBE toBE)

theorem table_length (kind) : (table kind).length = 256 := by cases kind <;> decide +kernel
theorem table_val (kind) : ∀ c : Byte, (table kind).getD c.toNat 0 = (alsw kind).decode c := by
  cases kind <;> decide +kernel

/-- The value of a character, `255` outside the alphabet. -/
abbrev val (kind : Kind) : Byte → Byte := (alsw kind).decode

theorem val_cases (kind) (c : Byte) : val kind c = 255#8 ∨ (val kind c).toNat < 2 ^ 5 := by
  by_cases h : val kind c = 255#8
  · exact .inl h
  · exact .inr (alsw_lt kind c h)

/-! ### Scalar reads -/

/-- The state of `decode_bits` after the characters `xs`. -/
def accS (val : Byte → Byte) : List Byte → BitVec 64 × Byte → BitVec 64 × Byte
  | [], st => st
  | x :: xs, st => accS val xs ((st.1 <<< 5) ||| (val x).zeroExtend 64, st.2 ||| val x)

theorem decode_bits_fold {kind m p} {xs : List Byte} (hs : HasBytes m p xs) {Q : BitVec 64 × Byte → Mem → Prop} {E} :
    ∀ (n i : Nat) (st : BitVec 64 × Byte), i + n = xs.length →
    (wp (foldFrom (fun i (st : BitVec 64 × Byte) => do
      let x ← rd p i
      let bits ← tread (table kind) x.toNat
      return ((st.1 <<< 5) ||| bits.zeroExtend 64, st.2 ||| bits)) i n st) Q E m ↔ Q (accS (val kind) (xs.drop i) st) m)
  | 0, i, st, h => by
    rw [List.drop_of_length_le (by omega)]; simp [foldFrom, accS]
  | n + 1, i, st, h => by
    have hi : i < xs.length := by omega
    rw [foldFrom, wp_bind]
    simp only [wp_bind, wp_rd_iff hs hi, wp_pure]
    rw [wp_tread_of rfl (by rw [table_length]; exact (xs[i]).isLt), table_val, decode_bits_fold hs n (i + 1) _ (by omega), List.drop_eq_getElem_cons hi, accS]

theorem accS_flag (kind) : ∀ (xs : List Byte) (st : BitVec 64 × Byte), (st.2 = 255#8 ∨ st.2.toNat < 2 ^ 5) →
    ((accS (val kind) xs st).2 = 255#8 ↔ st.2 = 255#8 ∨ ∃ c ∈ xs, val kind c = 255#8)
  | [], st, h => by simp [accS]
  | x :: xs, st, h => by
    obtain ⟨h1, h2⟩ := or_eq_ff st.2 (val kind x) (b := 5) (by omega) h (val_cases kind x)
    rw [accS, accS_flag kind xs _ h1]
    simp only [h2, List.mem_cons, exists_eq_or_imp, or_assoc]

theorem accS_val (kind) : ∀ (xs : List Byte) (st : BitVec 64 × Byte) (B : Nat), (∀ c ∈ xs, val kind c ≠ 255#8) → B + 5 * xs.length ≤ 64 →
    st.1.toNat < 2 ^ B → (accS (val kind) xs st).1.toNat = (xs.map (val kind)).foldl (fun a v => a * 2 ^ 5 + v.toNat) st.1.toNat
  | [], st, B, _, _, _ => by simp [accS]
  | x :: xs, st, B, hv, hB, hb => by
    have hx := (val_cases kind x).resolve_left (hv x (by simp))
    rw [List.length_cons] at hB
    have hp : 2 ^ B * 2 ^ 5 ≤ 2 ^ 64 := by rw [← Nat.pow_add]; exact Nat.pow_le_pow_right (by omega) (by omega)
    have h1 : st.1.toNat * 2 ^ 5 < 2 ^ 64 := Nat.lt_of_lt_of_le ((Nat.mul_lt_mul_right (Nat.two_pow_pos 5)).2 hb) hp
    have e : ((st.1 <<< 5) ||| (val kind x).zeroExtend 64).toNat = st.1.toNat * 2 ^ 5 + (val kind x).toNat := by
      have e1 : (st.1 <<< 5).toNat = st.1.toNat * 2 ^ 5 := shl_toNat _ _ h1
      have e2 : ((val kind x).zeroExtend 64).toNat = (val kind x).toNat := by rw [zext_toNat]; omega
      rw [BitVec.toNat_or, e1, e2, ← Nat.shiftLeft_eq, ← Nat.shiftLeft_add_eq_or_of_lt hx]
    rw [accS, accS_val kind xs _ (B + 5) (fun c hc => hv c (by simp [hc])) (by omega) ?_]
    · simp only [e, List.map_cons, List.foldl_cons]
    · simp only [e]
      rw [Nat.pow_add]
      calc st.1.toNat * 2 ^ 5 + (val kind x).toNat < st.1.toNat * 2 ^ 5 + 2 ^ 5 := by omega
        _ = (st.1.toNat + 1) * 2 ^ 5 := by omega
        _ ≤ 2 ^ B * 2 ^ 5 := Nat.mul_le_mul_right _ hb

theorem decode_bits_wp {kind m p N} {xs : List Byte} (hs : HasBytes m p xs) (hl : xs.length = N) (hN : N ≤ 8) :
    ∃ (u : BitVec 64) (flag : Byte), (flag = 255#8 ↔ ∃ c ∈ xs, val kind c = 255#8) ∧
      ((∀ c ∈ xs, val kind c ≠ 255#8) → u.toNat = digits 5 (xs.map (val kind))) ∧
      ∀ {Q : BitVec 64 × Byte → Mem → Prop} {E}, (wp (decode_bits N p (table kind)) Q E m ↔ Q (u, flag) m) := by
  refine ⟨(accS (val kind) xs (0, 0)).1, (accS (val kind) xs (0, 0)).2, ?_, fun hv => ?_, ?_⟩
  · rw [accS_flag kind xs (0, 0) (by simp)]; simp
  · rw [accS_val kind xs (0, 0) 0 hv (by omega) (by simp)]; rfl
  · intro Q E
    unfold decode_bits
    rw [decode_bits_fold hs N 0 _ (by omega), List.drop_zero]

/-! ### Scalar writes -/

/-- The `N` low bytes of `X`, high byte first. -/
def bytesOf (N X : Nat) : List Byte := (List.range' 0 N).map fun i => BitVec.ofNat 8 (X / 2 ^ ((N - 1 - i) * 8))

theorem write_fn_wp {q : Ptr} {f : Nat → Byte} {E} : ∀ (n i : Nat) {m : Mem} {Q : Unit → Mem → Prop}, CanWrite m q (i + n) →
    (wp (forFrom (fun i => wrt q i (f i)) i n) Q E m ↔ Q () (m.write (q.add i) ((List.range' i n).map f)))
  | 0, i, m, Q, _ => by simp [forFrom]
  | n + 1, i, m, Q, hw => by
    unfold CanWrite at hw
    have ih := fun m' (hm : m'.size = m.size) => write_fn_wp (q := q) (f := f) (E := E) n (i + 1) (m := m') (Q := Q) (by unfold CanWrite; rw [hm]; omega)
    simp only [forFrom, wp_bind, wp_wrt]
    have e : (m.write (q.add i) [f i]).write (q.add (i + 1)) ((List.range' (i + 1) n).map f) = m.write (q.add i) ((List.range' i (n + 1)).map f) := by
      rw [show q.add (i + 1) = (q.add i).add 1 by simp, Mem.write_append' m (q.add i) [_] _ (n := 1) rfl, List.range'_succ]; rfl
    constructor
    · rintro ⟨_, h⟩
      rw [ih _ (by simp), e] at h; exact h
    · intro h
      refine ⟨by omega, ?_⟩
      rw [ih _ (by simp), e]; exact h

theorem shr_byte (x : BitVec 64) (k : Nat) : (x >>> k).setWidth 8 = BitVec.ofNat 8 (x.toNat / 2 ^ k) := by
  apply BitVec.eq_of_toNat_eq
  rw [BitVec.toNat_setWidth, BitVec.toNat_ushiftRight, Nat.shiftRight_eq_div_pow, BitVec.toNat_ofNat]

theorem ext_byte (x : BitVec 64) (w k : Nat) (h : k + 8 ≤ w) : (x.setWidth w).extractLsb' k 8 = BitVec.ofNat 8 (x.toNat / 2 ^ k) := by
  apply BitVec.eq_of_toNat_eq
  rw [extract_toNat, BitVec.toNat_setWidth, BitVec.toNat_ofNat, show w = k + (w - k) by omega, Nat.pow_add, Nat.mod_mul_right_div_self,
    show w - k = 8 + (w - k - 8) by omega, Nat.pow_add, show (256 : Nat) = 2 ^ 8 from rfl, Nat.mod_mul_right_mod]

theorem write_be_bytes_wp (w : Bool) {m q N} {x : BitVec 64} {Q : Unit → Mem → Prop} {E} (hw : CanWrite m q N) :
    wp (write_be_bytes w N q x) Q E m ↔ Q () (m.write q (bytesOf N x.toNat)) := by
  unfold write_be_bytes
  unfold CanWrite at hw
  split
  · rename_i h
    obtain ⟨rfl, _⟩ := h
    simp only [wp_bind, wp_wrt, wp_padd, wp_storeBytes, toBE_length, Mem.write_size, Ptr.add_zero]
    rw [Mem.write_append' m q [_] _ (n := 1) rfl, show [(x >>> 16).setWidth 8] ++ toBE 2 (x.setWidth 16) = bytesOf 3 x.toNat by
      rw [show toBE 2 (x.setWidth 16) = [(x.setWidth 16).extractLsb' 8 8, (x.setWidth 16).extractLsb' 0 8] from rfl, shr_byte, ext_byte _ _ _ (by omega), ext_byte _ _ _ (by omega)]
      rfl]
    exact ⟨fun h => h.2.2.2, fun h => ⟨by omega, by omega, by simp; omega, h⟩⟩
  · split
    · rename_i h
      obtain ⟨rfl, _⟩ := h
      simp only [wp_bind, wp_wrt, wp_padd, wp_storeBytes, toBE_length, Mem.write_size, Ptr.add_zero]
      rw [Mem.write_append' m q [_] _ (n := 1) rfl, show [(x >>> 32).setWidth 8] ++ toBE 4 (x.setWidth 32) = bytesOf 5 x.toNat by
        rw [show toBE 4 (x.setWidth 32) = [(x.setWidth 32).extractLsb' 24 8, (x.setWidth 32).extractLsb' 16 8, (x.setWidth 32).extractLsb' 8 8, (x.setWidth 32).extractLsb' 0 8] from rfl,
          shr_byte, ext_byte _ _ _ (by omega), ext_byte _ _ _ (by omega), ext_byte _ _ _ (by omega), ext_byte _ _ _ (by omega)]
        rfl]
      exact ⟨fun h => h.2.2.2, fun h => ⟨by omega, by omega, by simp; omega, h⟩⟩
    · rw [write_fn_wp N 0 (by unfold CanWrite; omega), Ptr.add_zero]
      simp only [shr_byte]; rfl

/-! ### Blocks -/

theorem byte_eq {a b : Nat} (h : a % 256 = b % 256) : BitVec.ofNat 8 a = BitVec.ofNat 8 b := by
  apply BitVec.eq_of_toNat_eq; rw [BitVec.toNat_ofNat, BitVec.toNat_ofNat]; exact h

theorem bytes5 (vs : List Byte) (hl : vs.length = 8) (hv : ∀ v ∈ vs, v.toNat < 32) : bytesOf 5 (digits 5 vs) = decG (fun i => vs.getD i 0#8) := by
  match vs, hl with
  | [a, b, c, d, e, f, g, h], _ =>
    simp only [List.forall_mem_cons] at hv
    obtain ⟨ha, hb, hc, hd, he, hf, hg, hh, _⟩ := hv
    unfold bytesOf
    rw [show (List.range' 0 5) = [0, 1, 2, 3, 4] from rfl]
    simp only [digits, List.foldl_cons, List.foldl_nil, List.map_cons, List.map_nil, decG, List.getD_cons_zero, List.getD_cons_succ, Nat.reduceMul, Nat.reduceSub, Nat.reducePow]
    generalize a.toNat = a at *
    generalize b.toNat = b at *
    generalize c.toNat = c at *
    generalize d.toNat = d at *
    generalize e.toNat = e at *
    generalize f.toNat = f at *
    generalize g.toNat = g at *
    generalize h.toNat = h at *
    generalize hX : (((((((0 * 32 + a) * 32 + b) * 32 + c) * 32 + d) * 32 + e) * 32 + f) * 32 + g) * 32 + h = X
    rw [byte_eq (a := X / 4294967296) (b := a * 8 + b / 4) (by omega), byte_eq (a := X / 16777216) (b := b % 4 * 64 + c * 2 + d / 16) (by omega),
      byte_eq (a := X / 65536) (b := d % 16 * 16 + e / 2) (by omega), byte_eq (a := X / 256) (b := e % 2 * 128 + f * 4 + g / 8) (by omega),
      byte_eq (a := X / 1) (b := g % 8 * 32 + h) (by omega)]

/-- Characters, dropped bits and bytes of an incomplete block. -/
def Tail (k s M : Nat) : Prop := (k = 2 ∧ s = 2 ∧ M = 1) ∨ (k = 4 ∧ s = 4 ∧ M = 2) ∨ (k = 5 ∧ s = 1 ∧ M = 3) ∨ (k = 7 ∧ s = 3 ∧ M = 4)

theorem bytesT {k s M} (h : Tail k s M) (vs : List Byte) (hl : vs.length = k) (hv : ∀ v ∈ vs, v.toNat < 32) :
    bytesOf M (digits 5 vs / 2 ^ s) = (decG (fun i => vs.getD i 0#8)).take M := by
  rcases h with ⟨rfl, rfl, rfl⟩ | ⟨rfl, rfl, rfl⟩ | ⟨rfl, rfl, rfl⟩ | ⟨rfl, rfl, rfl⟩
  · match vs, hl with
    | [a, b], _ =>
      simp only [List.forall_mem_cons] at hv
      obtain ⟨ha, hb, _⟩ := hv
      unfold bytesOf
      rw [show (List.range' 0 1) = [0] from rfl]
      simp only [digits, List.foldl_cons, List.foldl_nil, List.map_cons, List.map_nil, decG, List.getD_cons_zero, List.getD_cons_succ, List.getD_nil,
        List.take_succ_cons, List.take_zero, BitVec.toNat_ofNat, Nat.reduceMul, Nat.reduceSub, Nat.reducePow]
      generalize a.toNat = a at *
      generalize b.toNat = b at *
      generalize hX : (0 * 32 + a) * 32 + b = X
      rw [byte_eq (a := X / 4 / 1) (b := a * 8 + b / 4) (by omega)]
  · match vs, hl with
    | [a, b, c, d], _ =>
      simp only [List.forall_mem_cons] at hv
      obtain ⟨ha, hb, hc, hd, _⟩ := hv
      unfold bytesOf
      rw [show (List.range' 0 2) = [0, 1] from rfl]
      simp only [digits, List.foldl_cons, List.foldl_nil, List.map_cons, List.map_nil, decG, List.getD_cons_zero, List.getD_cons_succ, List.getD_nil,
        List.take_succ_cons, List.take_zero, BitVec.toNat_ofNat, Nat.reduceMul, Nat.reduceSub, Nat.reducePow]
      generalize a.toNat = a at *
      generalize b.toNat = b at *
      generalize c.toNat = c at *
      generalize d.toNat = d at *
      generalize hX : (((0 * 32 + a) * 32 + b) * 32 + c) * 32 + d = X
      rw [byte_eq (a := X / 16 / 256) (b := a * 8 + b / 4) (by omega), byte_eq (a := X / 16 / 1) (b := b % 4 * 64 + c * 2 + d / 16) (by omega)]
  · match vs, hl with
    | [a, b, c, d, e], _ =>
      simp only [List.forall_mem_cons] at hv
      obtain ⟨ha, hb, hc, hd, he, _⟩ := hv
      unfold bytesOf
      rw [show (List.range' 0 3) = [0, 1, 2] from rfl]
      simp only [digits, List.foldl_cons, List.foldl_nil, List.map_cons, List.map_nil, decG, List.getD_cons_zero, List.getD_cons_succ, List.getD_nil,
        List.take_succ_cons, List.take_zero, BitVec.toNat_ofNat, Nat.reduceMul, Nat.reduceSub, Nat.reducePow]
      generalize a.toNat = a at *
      generalize b.toNat = b at *
      generalize c.toNat = c at *
      generalize d.toNat = d at *
      generalize e.toNat = e at *
      generalize hX : ((((0 * 32 + a) * 32 + b) * 32 + c) * 32 + d) * 32 + e = X
      rw [byte_eq (a := X / 2 / 65536) (b := a * 8 + b / 4) (by omega), byte_eq (a := X / 2 / 256) (b := b % 4 * 64 + c * 2 + d / 16) (by omega),
        byte_eq (a := X / 2 / 1) (b := d % 16 * 16 + e / 2) (by omega)]
  · match vs, hl with
    | [a, b, c, d, e, f, g], _ =>
      simp only [List.forall_mem_cons] at hv
      obtain ⟨ha, hb, hc, hd, he, hf, hg, _⟩ := hv
      unfold bytesOf
      rw [show (List.range' 0 4) = [0, 1, 2, 3] from rfl]
      simp only [digits, List.foldl_cons, List.foldl_nil, List.map_cons, List.map_nil, decG, List.getD_cons_zero, List.getD_cons_succ, List.getD_nil,
        List.take_succ_cons, List.take_zero, BitVec.toNat_ofNat, Nat.reduceMul, Nat.reduceSub, Nat.reducePow]
      generalize a.toNat = a at *
      generalize b.toNat = b at *
      generalize c.toNat = c at *
      generalize d.toNat = d at *
      generalize e.toNat = e at *
      generalize f.toNat = f at *
      generalize g.toNat = g at *
      generalize hX : ((((((0 * 32 + a) * 32 + b) * 32 + c) * 32 + d) * 32 + e) * 32 + f) * 32 + g = X
      rw [byte_eq (a := X / 8 / 16777216) (b := a * 8 + b / 4) (by omega), byte_eq (a := X / 8 / 65536) (b := b % 4 * 64 + c * 2 + d / 16) (by omega),
        byte_eq (a := X / 8 / 256) (b := d % 16 * 16 + e / 2) (by omega), byte_eq (a := X / 8 / 1) (b := e % 2 * 128 + f * 4 + g / 8) (by omega)]

theorem vals_lt {kind} {xs : List Byte} (h : ∀ c ∈ xs, val kind c ≠ 255#8) : ∀ v ∈ xs.map (val kind), v.toNat < 32 := by
  intro v hv
  obtain ⟨c, hc, rfl⟩ := List.mem_map.1 hv
  exact alsw_lt kind c (h c hc)

theorem block8_wp (w : Bool) {m p q kind} {xs : List Byte} {α : Type} {f : Prog α} {Q : α → Mem → Prop} {E} (hs : HasBytes m p xs) (hl : xs.length = 8)
    (hw : CanWrite m q 5)
    (hk : ∀ ys, dec32 (val kind) xs = some ys → ys.length = 5 → wp f Q E (m.write q ys))
    (he : dec32 (val kind) xs = none → E m) :
    wp (do
      let (u40, flag) ← decode_bits 8 p (table kind)
      ensure (flag != 0xff)
      write_be_bytes w 5 q u40
      padd p 8
      padd q 5
      f) Q E m := by
  have hb := hs.bound
  rw [dec32_blocks _ 1 _ (by omega)] at hk he
  obtain ⟨u, flag, hf, hu, hiff⟩ := decode_bits_wp (kind := kind) hs hl (by omega)
  rw [wp_bind, hiff]
  simp only [wp_bind, wp_ensure]
  cases hd : decB (val kind) 8 decG xs with
  | none =>
    rw [hf.2 (decB_none_iff.1 hd)]
    exact he hd
  | some ys =>
    have hne : ∀ c ∈ xs, val kind c ≠ 255#8 := ((decB8_some hl).1 hd).1
    have hff : flag ≠ 255#8 := fun h => by obtain ⟨c, hc, e⟩ := hf.1 h; exact hne c hc e
    rw [if_pos (by simpa using hff), write_be_bytes_wp w hw]
    simp only [wp_padd, Mem.write_size]
    unfold CanWrite at hw
    refine ⟨by omega, by omega, ?_⟩
    rw [hu hne, bytes5 _ (by simpa using hl) (vals_lt hne)]
    have := ((decB8_some hl).1 hd).2
    rw [← this]
    exact hk ys hd (by rw [this]; rfl)

theorem low_bits (u k : BitVec 64) (s : Nat) (hk : k.toNat = 2 ^ s - 1) : ((u &&& k) == 0) = decide (u.toNat % 2 ^ s = 0) := by
  rw [Bool.eq_iff_iff, beq_iff_eq, decide_eq_true_iff, ← BitVec.toNat_inj, BitVec.toNat_and, hk, Nat.and_two_pow_sub_one_eq_mod]
  simp

theorem extra_wp {m p kind k s M} {xs : List Byte} {mask : BitVec 64} (ht : Tail k s M) (hs : HasBytes m p xs) (hl : xs.length = k)
    (hmask : mask.toNat = 2 ^ s - 1) {f : BitVec 64 → Prog Unit} {Q : Unit → Mem → Prop} {E}
    (h1 : (∀ c ∈ xs, val kind c ≠ 255#8) → digits 5 (xs.map (val kind)) % 2 ^ s = 0 →
      ∀ u : BitVec 64, u.toNat = digits 5 (xs.map (val kind)) / 2 ^ s → wp (f u) Q E m)
    (h2 : ¬ ((∀ c ∈ xs, val kind c ≠ 255#8) ∧ digits 5 (xs.map (val kind)) % 2 ^ s = 0) → E m) :
    wp (do
      let (u, flag) ← decode_bits k p (table kind)
      ensure (flag != 0xff && (u &&& mask) == 0)
      f (u >>> s)) Q E m := by
  obtain ⟨u, flag, hf, hu, hiff⟩ := decode_bits_wp (kind := kind) hs hl (by rcases ht with h | h | h | h <;> omega)
  rw [wp_bind, hiff]
  simp only [wp_bind, wp_ensure]
  rw [low_bits _ _ s hmask]
  split
  · rename_i h
    simp only [Bool.and_eq_true, bne_iff_ne, ne_eq, decide_eq_true_iff] at h
    have hne : ∀ c ∈ xs, val kind c ≠ 255#8 := fun c hc e => h.1 (hf.2 ⟨c, hc, e⟩)
    rw [hu hne] at h
    refine h1 hne h.2 _ ?_
    rw [BitVec.toNat_ushiftRight, Nat.shiftRight_eq_div_pow, hu hne]
  · rename_i h
    refine h2 fun hc => h ?_
    simp only [Bool.and_eq_true, bne_iff_ne, ne_eq, decide_eq_true_iff]
    rw [hu hc.1]
    exact ⟨fun e => by obtain ⟨c, hm, e⟩ := hf.1 e; exact hc.1 c hm e, hc.2⟩

theorem extra_case_dec (w : Bool) {m p q kind k s M} {xs : List Byte} {mask : BitVec 64} (ht : Tail k s M) (hs : HasBytes m p xs) (hl : xs.length = k)
    (hmask : mask.toNat = 2 ^ s - 1) (hw : CanWrite m q M) (he : dec32 (val kind) xs = decT (val kind) M (digits 5 (xs.map (val kind)) % 2 ^ s) xs) :
    Does (do
      let (u, flag) ← decode_bits k p (table kind)
      ensure (flag != 0xff && (u &&& mask) == 0)
      write_opt w M (some q) (u >>> s)) () (dec32 (val kind)) xs q (decLen k) m := by
  unfold Does
  refine extra_wp ht hs hl hmask (f := fun u => write_opt w M (some q) u) ?_ ?_
  · intro hv hz u hu
    show wp (write_be_bytes w M q u) _ _ _
    rw [write_be_bytes_wp w hw]
    have hd : dec32 (val kind) xs = some (bytesOf M u.toNat) := by
      rw [he, decT, if_pos ⟨hv, hz⟩, hu, bytesT ht _ (by simpa using hl) (vals_lt hv)]
    exact ⟨rfl, _, hd, by rw [dec32_length _ _ _ hd, hl], rfl⟩
  · intro h
    refine ⟨?_, SameOutside.refl⟩
    rw [he, decT, if_neg h]

theorem decode_extra_spec (w : Bool) {m p q kind} {xs : List Byte} {k : Nat} (hs : HasBytes m p xs) (hl : xs.length = k) (hk : k < 8) (hok : OkLen k)
    (hw : CanWrite m q (decLen k)) :
    Does (decode_extra w p k (some q) (table kind)) () (dec32 (val kind)) xs q (decLen k) m := by
  match k, xs, hl with
  | 0, [], _ => exact Does.pure rfl
  | 2, [a, b], _ =>
    exact extra_case_dec w (s := 2) (M := 1) (.inl ⟨rfl, rfl, rfl⟩) hs rfl rfl (by simpa [decLen] using hw)
      (congrArg (fun t => decT (val kind) 1 t [a, b]) (by simp [digits]; omega))
  | 4, [a, b, c, d], _ =>
    exact extra_case_dec w (s := 4) (M := 2) (.inr (.inl ⟨rfl, rfl, rfl⟩)) hs rfl rfl (by simpa [decLen] using hw)
      (congrArg (fun t => decT (val kind) 2 t [a, b, c, d]) (by simp [digits]; omega))
  | 5, [a, b, c, d, e], _ =>
    exact extra_case_dec w (s := 1) (M := 3) (.inr (.inr (.inl ⟨rfl, rfl, rfl⟩))) hs rfl rfl (by simpa [decLen] using hw)
      (congrArg (fun t => decT (val kind) 3 t [a, b, c, d, e]) (by simp [digits]; omega))
  | 7, [a, b, c, d, e, f, g], _ =>
    exact extra_case_dec w (s := 3) (M := 4) (.inr (.inr (.inr ⟨rfl, rfl, rfl⟩))) hs rfl rfl (by simpa [decLen] using hw)
      (congrArg (fun t => decT (val kind) 4 t [a, b, c, d, e, f, g]) (by simp [digits]; omega))
  | 1, _, _ => simp [OkLen] at hok
  | 3, _, _ => simp [OkLen] at hok
  | 6, _, _ => simp [OkLen] at hok

theorem decLen_step (k n : Nat) (h : 8 * k ≤ n) : decLen n = 5 * k + decLen (n - 8 * k) := by
  rw [← decLen_add, show n - 8 * k + 8 * k = n by omega]

theorem decode_fallback_spec (w : Bool) {m p q kind} {xs : List Byte} {n : Nat} (hs : HasBytes m p xs) (hl : xs.length = n) (hok : OkLen n)
    (hw : CanWrite m q (decLen n)) (hd : Behind p q n) :
    Does (decode_fallback w p n q kind) () (dec32 (val kind)) xs q (decLen n) m := by
  have hb := hs.bound
  unfold CanWrite at hw
  have he := decLen_step (n / 8) n (by omega)
  rw [show n - 8 * (n / 8) = n % 8 by omega] at he
  unfold decode_fallback
  refine Does.padd (by omega) ?_
  rw [show n / 8 * 8 = 8 * (n / 8) by omega]
  refine Does.seqS (k := 8 * (n / 8)) (n1 := 5 * (n / 8)) (n2 := decLen (n % 8)) hs (by omega) hw he (by unfold Behind at hd; omega)
    (dec32_app _ (by rw [List.length_take]; omega))
    (loop_specS (F := fun e p q => decode_loop8 w (table kind) e p q) (ret := fun p q => (p, q)) (a := 8) (b := 5) (by omega)
      (fun e p q h => by rw [decode_loop8, if_neg h]) (dec32_nil (val kind)) (fun xs ys h => dec32_app _ (by omega))
      (by
        intro e m p q xs Q E he hl hs hw _ hk hf
        rw [decode_loop8, if_pos he]
        exact block8_wp w hs hl hw hk fun h => hf h _ SameOutside.refl)
      (n / 8) m p q _ (by rw [List.length_take]; omega) (hs.take _) (by unfold CanWrite; omega) (by unfold Behind at hd; unfold Safe; omega)) ?_
  intro m' hs' hw' _
  exact decode_extra_spec w hs' (by rw [List.length_drop]; omega) (by omega) (by unfold OkLen at *; omega) hw'

theorem decLen_six {n : Nat} (h : 10 ≤ n) (hok : OkLen n) : 6 ≤ decLen n := by
  unfold decLen OkLen at *
  repeat' split
  all_goals omega

theorem decode_simd_spec (w : Bool) {s : Isa} (hg : Good s) {m p q kind} {xs : List Byte} {n : Nat} (hs : HasBytes m p xs) (hl : xs.length = n) (hok : OkLen n)
    (hw : CanWrite m q (decLen n)) (hd : Behind p q n) :
    Does (decode_simd w s p n q kind) () (dec32 (val kind)) xs q (decLen n) m := by
  have hsub : ∀ n, 32 ≤ n → OkLen n → OkLen (n - 32) := fun n h h1 => by unfold OkLen at *; omega
  unfold decode_simd
  refine countdown (F := decode_loop32 s (ALSW_CHECK_X2 kind) (ALSW_DECODE_X2 kind)) (a := 32) (b := 20) (j := 6) (T := 42) (I := fun _ _ => True) (e := 0)
    (ok := OkLen) (out := decLen) (by omega) (by omega)
    (fun p q n h => by rw [decode_loop32, if_neg (by omega)])
    (fun n h h1 => ⟨decLen_step 4 n (by omega), decLen_six (by omega) (hsub n (by omega) h1), hsub n (by omega) h1⟩)
    (fun xs ys h => dec32_app _ (by omega)) (fun _ _ _ _ _ _ _ _ _ _ => trivial)
    ?_ ?_ n m p q xs hok hl hs hw (by unfold Behind at hd; unfold CdSafe; omega) trivial
  · intro m p q n xs Q E hn h1 hl hs hw hd _ hk he
    have hb := hs.bound
    have e1 : decLen n = 20 + decLen (n - 32) := decLen_step 4 n (by omega)
    have e2 : 6 ≤ decLen (n - 32) := decLen_six (by omega) (hsub n (by omega) h1)
    have e8 : (xs.take 32).length = 32 := by rw [List.length_take]; omega
    unfold CanWrite at hw
    rw [dec32_blocks _ 4 _ (by omega)] at hk he
    rw [decode_loop32, if_pos (by omega)]
    obtain ⟨r, hr, hres⟩ := decode_ascii32_spec hg kind (xs.take 32) e8
    simp only [wp_bind, wp_v256_load (hs.take 32) e8, hr]
    cases r with
    | error u =>
      rw [wp_liftR_error]
      exact he hres _ SameOutside.refl
    | ok y =>
      simp only [DecRes] at hres
      simp only [wp_liftR_ok, wp_v128_store, wp_padd, Mem.write_size]
      refine ⟨by omega, by omega, by simp; omega, by omega, by omega, ?_⟩
      have hj := Mem.write_append_junk m q (y.lo.toList.take 10) (y.lo.toList.drop 10) y.hi.toList (by simp)
      rw [List.take_append_drop, show (y.lo.toList.take 10).length = 10 by simp] at hj
      rw [hj, ← List.take_append_drop 10 y.hi.toList, ← List.append_assoc]
      have := hk _ (y.hi.toList.drop 10) hres (by simp) (by simp)
      exact this
  · intro m p q n xs hn hn1 hl hs hw hd _
    exact decode_fallback_spec w hs hl hn1 hw (by unfold CdSafe at hd; unfold Behind; omega)

theorem decode_auto_spec (w : Bool) {i : Option Isa} (hi : ∀ s, i = some s → Good s) {m p q kind} {xs : List Byte} {n : Nat} (hs : HasBytes m p xs) (hl : xs.length = n) (hok : OkLen n)
    (hw : CanWrite m q (decLen n)) (hd : Behind p q n) :
    Does (decode_auto w i p n q kind) () (dec32 (val kind)) xs q (decLen n) m := by
  cases i with
  | none => exact decode_fallback_spec w hs hl hok hw hd
  | some s => exact decode_simd_spec w (hi s rfl) hs hl hok hw hd

end Simd.Base32
