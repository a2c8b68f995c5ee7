import Verif.Model.Endian
import Verif.Lemmas.Scalar
import Verif.Lemmas.Oblivious
import Verif.Lemmas.Utf32
import Verif.Lemmas.Bswap
import Verif.Spec.Endian
/-
The native-endian scalar code does the same, for both byte orders, as the model used everywhere else.
-/
namespace Simd
open Base64 (ofBE toBE)

/-! ### Integers and their bytes -/

theorem foldl_beNat (bs : List Byte) (a : Nat) : bs.foldl (fun a b => a * 256 + b.toNat) a = a * 256 ^ bs.length + beNat bs := by
  induction bs generalizing a with
  | nil => simp [beNat]
  | cons b bs ih =>
    simp only [beNat, List.foldl_cons, List.length_cons, Nat.zero_mul, Nat.zero_add]
    rw [ih, ih b.toNat, Nat.add_mul, Nat.pow_succ', Nat.mul_assoc, Nat.add_assoc]

theorem beNat_cons (b : Byte) (bs : List Byte) : beNat (b :: bs) = b.toNat * 256 ^ bs.length + beNat bs := by
  rw [beNat, List.foldl_cons, foldl_beNat]; simp

theorem beNat_lt_pow (bs : List Byte) : beNat bs < 256 ^ bs.length := by
  induction bs with
  | nil => simp [beNat]
  | cons b bs ih =>
    have := b.isLt
    rw [beNat_cons, List.length_cons, Nat.pow_succ']
    calc _ < b.toNat * 256 ^ bs.length + 256 ^ bs.length := by omega
      _ = (b.toNat + 1) * 256 ^ bs.length := by rw [Nat.add_mul, Nat.one_mul]
      _ ≤ 256 * 256 ^ bs.length := Nat.mul_le_mul_right _ (by omega)

theorem beNat_inj : ∀ {bs cs : List Byte}, bs.length = cs.length → beNat bs = beNat cs → bs = cs
  | [], [], _, _ => rfl
  | b :: bs, c :: cs, hl, h => by
    simp only [List.length_cons, Nat.add_right_cancel_iff] at hl
    rw [beNat_cons, beNat_cons, ← hl] at h
    have h1 := beNat_lt_pow bs
    have h2 := beNat_lt_pow cs
    rw [← hl] at h2
    have hp : 0 < 256 ^ bs.length := Nat.pow_pos (by omega)
    have e1 := congrArg (· / 256 ^ bs.length) h
    have e2 := congrArg (· % 256 ^ bs.length) h
    simp only [Nat.mul_comm _ (256 ^ bs.length), Nat.mul_add_div hp, Nat.div_eq_of_lt h1, Nat.div_eq_of_lt h2, Nat.mul_add_mod,
      Nat.mod_eq_of_lt h1, Nat.mod_eq_of_lt h2, Nat.add_zero] at e1 e2
    rw [BitVec.eq_of_toNat_eq e1, beNat_inj hl e2]

theorem toBE_succ {w} (n : Nat) (x : BitVec w) : toBE (n + 1) x = x.extractLsb' (8 * n) 8 :: toBE n x := by
  unfold toBE
  rw [List.range_succ_eq_map, List.map_cons, List.map_map]
  congr 1
  exact List.map_congr_left fun i hi => by simp only [Function.comp, Nat.succ_eq_add_one]; congr 2; omega

theorem beNat_toBE {w} (n : Nat) (x : BitVec w) : beNat (toBE n x) = x.toNat % 256 ^ n := by
  induction n with
  | zero => simp [toBE, beNat, Nat.mod_one]
  | succ n ih =>
    rw [toBE_succ, beNat_cons, ih, toBE_length, BitVec.extractLsb'_toNat, Nat.shiftRight_eq_div_pow, Nat.pow_succ 256, Nat.mod_mul,
      show 2 ^ (8 * n) = 256 ^ n from Nat.pow_mul 2 8 n, Nat.mul_comm, Nat.add_comm]

theorem ofBE_toBE {w} (n : Nat) (hw : w = 8 * n) (x : BitVec w) : ofBE w (toBE n x) = x := by
  apply BitVec.eq_of_toNat_eq
  rw [ofBE_toNat _ (by simp [hw]), beNat_toBE, Nat.mod_eq_of_lt]
  have := x.isLt
  rwa [show 256 ^ n = 2 ^ w by rw [hw, Nat.pow_mul]]

theorem toBE_ofBE {w} {n : Nat} (hw : w = 8 * n) {bs : List Byte} (h : bs.length = n) : toBE n (ofBE w bs) = bs := by
  apply beNat_inj (by simp [h])
  rw [beNat_toBE, ofBE_toNat _ (by omega), ← h, Nat.mod_eq_of_lt (beNat_lt_pow bs)]

/-- A native read followed by `to_be` is a big-endian read. -/
theorem to_be_ofMem (e : ByteOrder) {w n : Nat} (hw : w = 8 * n) {bs : List Byte} (h : bs.length = n) : to_be e n (ofMem e w bs) = ofBE w bs := by
  cases e with
  | little => show swap_bytes n (ofBE w bs.reverse) = _; rw [swap_bytes, toBE_ofBE hw (by simpa), List.reverse_reverse]
  | big => rfl

/-- `to_be` followed by a native write is a big-endian write. -/
theorem toMem_to_be (e : ByteOrder) {w n : Nat} (hw : w = 8 * n) (x : BitVec w) : toMem e n (to_be e n x) = toBE n x := by
  cases e with
  | little => show (toBE n (ofBE w (toBE n x).reverse)).reverse = _; rw [toBE_ofBE hw (by simp), List.reverse_reverse]
  | big => rfl

/-- Reading, swapping and writing an integer reverses its bytes. -/
theorem toMem_swap (e : ByteOrder) {w n : Nat} (hw : w = 8 * n) {bs : List Byte} (h : bs.length = n) :
    toMem e n (swap_bytes n (ofMem e w bs)) = bs.reverse := by
  cases e with
  | little =>
    show (toBE n (ofBE w (toBE n (ofBE w bs.reverse)).reverse)).reverse = _
    rw [toBE_ofBE hw (by simp), toBE_ofBE hw (by simpa), List.reverse_reverse]
  | big =>
    show toBE n (ofBE w (toBE n (ofBE w bs)).reverse) = _
    rw [toBE_ofBE hw (by simp), toBE_ofBE hw h]

/-! ### Programs with the same runs -/

variable {α β : Type}

/-- Same outcome in every memory. -/
structure Eqv (x y : Prog α) : Prop where
  run : ∀ m, x.run m = y.run m

namespace Eqv
theorem refl (x : Prog α) : Eqv x x := ⟨fun _ => rfl⟩
theorem of_eq {x y : Prog α} (h : x = y) : Eqv x y := h ▸ refl x
theorem bind {x x' : Prog α} {f f' : α → Prog β} (h : Eqv x x') (hf : ∀ a, Eqv (f a) (f' a)) : Eqv (x >>= f) (x' >>= f') := by
  refine ⟨fun m => ?_⟩
  rw [run_bind, run_bind, h.run m]
  cases x'.run m with
  | ok a m' => exact (hf a).run m'
  | _ => rfl
theorem seq {x : Prog α} {f f' : α → Prog β} (hf : ∀ a, Eqv (f a) (f' a)) : Eqv (x >>= f) (x >>= f') := bind (refl x) hf
theorem load {p : Ptr} {n : Nat} {f f' : List Byte → Prog β} (hf : ∀ bs, bs.length = n → Eqv (f bs) (f' bs)) :
    Eqv (loadBytes p n >>= f) (loadBytes p n >>= f') := by
  refine ⟨fun m => ?_⟩
  show (Prog.load p n f).run m = (Prog.load p n f').run m
  simp only [Prog.run]
  cases h : m.read p n with
  | none => rfl
  | some bs => exact (hf bs (read_length h)).run m
end Eqv

/-! ### base32-simd -/
namespace Base32

theorem read_be_bytes_ne_eqv (e w N src) : Eqv (read_be_bytes_ne e w N src) (read_be_bytes w N src) := by
  unfold read_be_bytes_ne read_be_bytes
  split
  · exact .seq fun x => .seq fun _ => .load fun bs h => .of_eq (by rw [to_be_ofMem e rfl h])
  · split
    · exact .seq fun x => .seq fun _ => .load fun bs h => .of_eq (by rw [to_be_ofMem e rfl h])
    · exact .refl _

theorem encode_extra_ne_eqv (e w src extra dst cs pad) : Eqv (encode_extra_ne e w src extra dst cs pad) (encode_extra w src extra dst cs pad) := by
  match extra with
  | 0 => exact .refl _
  | 1 | 2 | 3 | 4 => exact .bind (read_be_bytes_ne_eqv ..) fun _ => .refl _
  | _ + 5 => exact .refl _

theorem encode_loop5_ne_eqv (e w cs end_ src dst) : Eqv (encode_loop5_ne e w cs end_ src dst) (encode_loop5 w cs end_ src dst) := by
  unfold encode_loop5_ne encode_loop5
  split
  · exact .bind (read_be_bytes_ne_eqv ..) fun _ => .seq fun _ => .seq fun _ => .seq fun _ => encode_loop5_ne_eqv ..
  · exact .refl _
termination_by end_ - src.off
decreasing_by simp only [Ptr.add]; omega

theorem encode_fallback_ne_eqv (e w src len dst kind pad) :
    Eqv (encode_fallback_ne e w src len dst kind pad) (encode_fallback w src len dst kind pad) :=
  .seq fun _ => .bind (encode_loop5_ne_eqv ..) fun _ => encode_extra_ne_eqv ..

theorem encode_ne_eqv (e P w config src dst) : Eqv (encode_ne e P w config src dst) (encode P w none config src dst) :=
  .seq fun _ => .seq fun _ => .bind (encode_fallback_ne_eqv ..) fun _ => .refl _

theorem write_be_bytes_ne_eq (e w N dst x) : write_be_bytes_ne e w N dst x = write_be_bytes w N dst x := by
  unfold write_be_bytes_ne write_be_bytes
  rw [toMem_to_be e rfl, toMem_to_be e rfl]

theorem decode_extra_ne_eq (e w src extra dst table) : decode_extra_ne e w src extra dst table = decode_extra w src extra (some dst) table := by
  unfold decode_extra_ne decode_extra write_opt
  simp only [write_be_bytes_ne_eq]
  rfl

theorem decode_loop8_ne_eq (e w table end_ src dst) : decode_loop8_ne e w table end_ src dst = decode_loop8 w table end_ src dst := by
  unfold decode_loop8_ne decode_loop8
  split
  · simp only [write_be_bytes_ne_eq, decode_loop8_ne_eq e w table end_ (src.add 8)]
  · rfl
termination_by end_ - src.off
decreasing_by simp only [Ptr.add]; omega

theorem decode_fallback_ne_eq (e w src n dst kind) : decode_fallback_ne e w src n dst kind = decode_fallback w src n dst kind := by
  unfold decode_fallback_ne decode_fallback
  simp only [decode_loop8_ne_eq, decode_extra_ne_eq]

theorem decode_ne_eq (e w config src dst) : decode_ne e w config src dst = decode w none config src dst := by
  unfold decode_ne decode decode_auto
  simp only [decode_fallback_ne_eq]

theorem decode_inplace_ne_eq (e w config data) : decode_inplace_ne e w config data = decode_inplace w none config data := by
  unfold decode_inplace_ne decode_inplace decode_auto
  simp only [decode_fallback_ne_eq]

end Base32

/-! ### base64-simd -/
namespace Base64

theorem decode_ascii8_ne_eq (e src dst table) : decode_ascii8_ne e src dst table = decode_ascii8 src (some dst) table := by
  unfold decode_ascii8_ne decode_ascii8
  simp only [toMem_to_be e rfl, Option.isSome_some, if_true]

theorem decode_loop8_ne_eq (e table src dst n) : decode_loop8_ne e table src dst n = decode_loop8 table src dst n := by
  unfold decode_loop8_ne decode_loop8
  split
  · simp only [decode_ascii8_ne_eq, decode_loop8_ne_eq e table (src.add 8) _ (n - 8)]
  · rfl
termination_by n

theorem decode_fallback_ne_eq (e src dst n config) : decode_fallback_ne e src dst n config = decode_fallback src dst n config := by
  unfold decode_fallback_ne decode_fallback
  simp only [decode_loop8_ne_eq]

theorem decode_ne_eq (e config src dst) : decode_ne e config src dst = decode none config src dst := by
  unfold decode_ne decode decode_auto
  simp only [decode_fallback_ne_eq]

theorem decode_inplace_ne_eq (e config data) : decode_inplace_ne e config data = decode_inplace none config data := by
  unfold decode_inplace_ne decode_inplace decode_auto
  simp only [decode_fallback_ne_eq]

end Base64

/-! ### unicode-simd -/
namespace Unicode

theorem bswap_loop_ne_eqv (e t end_ src dst) : Eqv (bswap_fallback_loop_ne e t end_ src dst) (bswap_fallback_loop t end_ src dst) := by
  unfold bswap_fallback_loop_ne bswap_fallback_loop
  split
  · exact .load fun bs h => .bind (.of_eq (by rw [toMem_swap e rfl h]; rfl)) fun _ => .seq fun _ => .seq fun _ => bswap_loop_ne_eqv ..
  · exact .refl _
termination_by end_ - src.off
decreasing_by cases t <;> simp only [Ptr.add, Elem.size] <;> omega

theorem swap_ne_eqv (e t src dst) : Eqv (swap_endianness_ne e t src dst) (swap_endianness t none src dst) :=
  .seq fun _ => .bind (.seq fun _ => bswap_loop_ne_eqv ..) fun _ => .refl _

theorem swap_inplace_ne_eqv (e t data) : Eqv (swap_endianness_inplace_ne e t data) (swap_endianness_inplace t none data) :=
  .seq fun _ => bswap_loop_ne_eqv ..

theorem be_bytes_one {w} (n : Nat) (x : BitVec w) : ((List.range n).map (Spec.wordByte x)).reverse = toBE n x := by
  apply List.ext_getElem
  · simp
  · intro i h1 h2
    have hi : i < n := by simpa using h1
    simp only [toBE, List.getElem_reverse, List.getElem_map, List.getElem_range, List.length_map, List.length_range]
    apply BitVec.eq_of_toNat_eq
    rw [wordByte_toNat, BitVec.extractLsb'_toNat, Nat.shiftRight_eq_div_pow, Nat.pow_mul]

theorem memBytes_cons {w} (e : ByteOrder) (n : Nat) (x : BitVec w) (ws) : Spec.memBytes e n (x :: ws) = toMem e n x ++ Spec.memBytes e n ws := by
  cases e with
  | little => simp only [Spec.memBytes, toMem, ← be_bytes_one, List.reverse_reverse, List.flatMap_cons]
  | big => simp only [Spec.memBytes, toMem, ← be_bytes_one, List.flatMap_cons]

theorem toMem_length {w} (e : ByteOrder) (n : Nat) (x : BitVec w) : (toMem e n x).length = n := by cases e <;> simp [toMem]

theorem memBytes_length {w} (e : ByteOrder) (n : Nat) (ws : List (BitVec w)) : (Spec.memBytes e n ws).length = n * ws.length := by
  induction ws with
  | nil => cases e <;> simp [Spec.memBytes]
  | cons x ws ih => rw [memBytes_cons, List.length_append, ih, toMem_length, List.length_cons, Nat.mul_succ, Nat.add_comm]

theorem ofMem_toMem (e : ByteOrder) {w n : Nat} (hw : w = 8 * n) (x : BitVec w) : ofMem e w (toMem e n x) = x := by
  cases e <;> simp only [ofMem, toMem, List.reverse_reverse, ofBE_toBE n hw]

/-- Memory of the other byte order holds the swapped words. -/
theorem memBytes_swap {w : Nat} (n : Nat) (sw : BitVec w → BitVec w) (h : ∀ x k, k < n → Spec.wordByte (sw x) k = Spec.wordByte x (n - 1 - k))
    (ws : List (BitVec w)) : Spec.memBytes .big n ws = Spec.memBytes .little n (ws.map sw) := by
  induction ws with
  | nil => rfl
  | cons x ws ih =>
    rw [List.map_cons, memBytes_cons, memBytes_cons, ih]
    congr 1
    simp only [toMem, ← be_bytes_one, List.reverse_reverse]
    apply List.ext_getElem
    · simp
    · intro i h1 h2
      have hi : i < n := by simpa using h1
      simp only [List.getElem_reverse, List.getElem_map, List.getElem_range, List.length_map, List.length_range, h x i hi]

theorem utf32_ne_loop_wp (e : ByteOrder) : ∀ {ws : List (BitVec 32)} {m p flag} {Q : Bool → Mem → Prop} {E}, HasBytes m p (Spec.memBytes e 4 ws) →
    Q (flag && ws.all is_unicode_scalar_value) m → wp (is_utf32le_fallback_loop_ne e (p.off + 4 * ws.length) p flag) Q E m := by
  intro ws
  induction ws with
  | nil =>
    intro m p flag Q E hx hQ
    rw [is_utf32le_fallback_loop_ne, if_neg (by simp), wp_pure]; simpa using hQ
  | cons x ws ih =>
    intro m p flag Q E hx hQ
    have hb := hx.bound
    rw [memBytes_length, List.length_cons] at hb
    rw [memBytes_cons] at hx
    have hl := toMem_length e 4 x
    rw [is_utf32le_fallback_loop_ne, if_pos (by rw [List.length_cons]; omega)]
    simp only [wp_bind, wp_loadBytes_iff hx.left hl, wp_padd]
    refine ⟨by omega, ?_⟩
    have hr := hx.right
    rw [hl] at hr
    have := ih (p := p.add 4) (flag := flag && is_unicode_scalar_value x) (Q := Q) (E := E) hr (by simpa [Bool.and_assoc] using hQ)
    rw [ofMem_toMem e (w := 32) (n := 4) rfl]
    rwa [show (p.add 4).off + 4 * ws.length = p.off + 4 * (x :: ws).length by simp; omega] at this

theorem all_scalar (ws : List (BitVec 32)) : ws.all is_unicode_scalar_value = decide (∀ w ∈ ws, Spec.IsScalar w) := by
  rw [Bool.eq_iff_iff]; simp [scalar_spec]

theorem utf32_ne_tests (e : ByteOrder) {ws : List (BitVec 32)} {m p} (hx : HasBytes m p (Spec.memBytes e 4 ws)) :
    Tests (is_utf32le_ne e ⟨p, ws.length⟩) (decide (∀ w ∈ ws, Spec.IsScalar w)) m := by
  have hb := hx.bound
  rw [memBytes_length] at hb
  unfold is_utf32le_ne Tests
  rw [wp_bind, wp_padd]
  exact ⟨by omega, utf32_ne_loop_wp e hx ⟨by rw [Bool.true_and, all_scalar], rfl⟩⟩

end Unicode
end Simd
