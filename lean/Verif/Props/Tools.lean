import Verif.Model.Tools
import Verif.Spec.Lane
import Mathlib.Tactic.Ring
/-
C84: the public helpers of vsimd: `unroll` visits every element once and in order, `print_fn_table` prints the table of the function,
`align` splits a slice without losing a byte and with the largest possible middle, and vector conversions keep the bytes in order.
-/
namespace Simd.Tools

/-! ### unroll -/

theorem forEach_append {α σ : Type} (f : σ → α → Run σ) (xs ys : List α) (s : σ) :
    forEach f (xs ++ ys) s = (match forEach f xs s with | .ok s' => forEach f ys s' | .error s' => .error s') := by
  induction xs generalizing s with
  | nil => rfl
  | cons x xs ih =>
    simp only [List.cons_append, forEach]
    cases f s x with
    | ok s' => exact ih s'
    | error s' => rfl

theorem unrollChunks_eq {α σ : Type} (f : σ → α → Run σ) (k : Nat) (hk : k ≠ 0) (xs : List α) (s : σ) :
    (match unrollChunks f k hk xs s with | .ok (s', rest) => forEach f rest s' | .error s' => .error s') = forEach f xs s := by
  fun_induction unrollChunks f k hk xs s with
  | case1 xs s h s' h' ih =>
    rw [ih]
    conv => rhs; rw [← List.take_append_drop k xs]
    rw [forEach_append, h']
  | case2 xs s h s' h' =>
    conv => rhs; rw [← List.take_append_drop k xs]
    rw [forEach_append, h']
  | case3 => rfl

theorem unroll_eq {α σ : Type} (xs : List α) (k : Nat) (hk : k ≠ 0) (f : σ → α → Run σ) (s : σ) : unroll xs k f s = forEach f xs s := by
  rw [← unrollChunks_eq f k hk xs s, unroll, dif_neg hk]
  rcases unrollChunks f k hk xs s with s' | ⟨s', rest⟩ <;> rfl

end Simd.Tools

namespace Simd.Spec
open Tools

/-- The state after calling `f` on the elements of `xs` in order, stopping at the first call that panics. -/
inductive Calls {α σ : Type} (f : σ → α → Run σ) : List α → σ → Run σ → Prop
  | done (s : σ) : Calls f [] s (.ok s)
  | panic {x : α} {xs : List α} {s s' : σ} (h : f s x = .error s') : Calls f (x :: xs) s (.error s')
  | next {x : α} {xs : List α} {s s' : σ} {r : Run σ} (h : f s x = .ok s') (t : Calls f xs s' r) : Calls f (x :: xs) s r

end Simd.Spec

namespace Simd.Tools

theorem forEach_calls {α σ : Type} (f : σ → α → Run σ) (xs : List α) (s : σ) : Spec.Calls f xs s (forEach f xs s) := by
  induction xs generalizing s with
  | nil => exact .done s
  | cons x xs ih =>
    simp only [forEach]
    cases h : f s x with
    | ok s' => exact .next h (ih s')
    | error s' => exact .panic h

/-- C84: for a chunk size other than 0, `unroll` calls the closure on every element once, in order, and stops if a call panics; for chunk size
0 it panics without a call. -/
theorem C84_unroll {α σ : Type} (xs : List α) (k : Nat) (f : σ → α → Run σ) (s : σ) :
    (k ≠ 0 → Spec.Calls f xs s (unroll xs k f s)) ∧ (k = 0 → unroll xs k f s = .error s) := by
  constructor
  · intro hk
    rw [unroll_eq _ _ hk]
    exact forEach_calls f xs s
  · intro hk
    rw [unroll, dif_pos hk]

/-- C84: a closure that records what it is given records the slice. -/
theorem C84_unroll_records {α : Type} (xs : List α) (k : Nat) (hk : k ≠ 0) (seen : List α) :
    unroll xs k (fun seen x => .ok (seen ++ [x])) seen = .ok (seen ++ xs) := by
  rw [unroll_eq _ _ hk]
  induction xs generalizing seen with
  | nil => simp [forEach]
  | cons x xs ih => simp [forEach, ih]

example : unroll [1, 2, 3, 4, 5] 2 (fun seen (x : Nat) => if x = 4 then .error seen else .ok (seen ++ [x])) [] = .error [1, 2, 3] := by
  rw [unroll_eq _ _ (by decide)]; rfl

/-! ### align -/

theorem alignOffset_some {addr size a k : Nat} (h : alignOffset addr size a = some k) :
    (addr + k * size) % a = 0 ∧ ∀ j, j < k → (addr + j * size) % a ≠ 0 := by
  unfold alignOffset at h
  have h1 := List.find?_some h
  refine ⟨by simpa using h1, ?_⟩
  intro j hj hz
  rw [List.find?_eq_some_iff_getElem] at h
  obtain ⟨_, i, hi, he, hlt⟩ := h
  simp only [List.length_range] at hi
  simp only [List.getElem_range] at he
  subst he
  have := hlt j hj
  simp [hz] at this

theorem alignOffset_none {addr size a : Nat} (h : alignOffset addr size a = none) (ha : 0 < a) (k : Nat) : (addr + k * size) % a ≠ 0 := by
  unfold alignOffset at h
  rw [List.find?_eq_none] at h
  have := h (k % a) (List.mem_range.2 (Nat.mod_lt _ ha))
  intro hz
  apply this
  have e : (addr + k % a * size) % a = (addr + k * size) % a := by
    rw [Nat.add_mod, Nat.mul_mod, Nat.mod_mod, ← Nat.mul_mod, ← Nat.add_mod]
  simp [e, hz]

end Simd.Tools

namespace Simd.Spec

/-- A way to cut a slice of `len` elements of `size` bytes at address `addr` into `l` elements, `m` elements of `usz` bytes, and `r` elements,
such that the middle part, if it is not empty, is aligned. -/
def Cut (addr size len usz ualign l m r : Nat) : Prop :=
  l * size + m * usz + r * size = len * size ∧ (m ≠ 0 → (addr + l * size) % ualign = 0)

end Simd.Spec

namespace Simd.Tools

/-- C84: `align` cuts the slice into three pieces that together are its bytes; the middle piece, if it is not empty, lies directly behind the
first one at an address that is a multiple of the alignment; and no other way to cut the slice has a larger aligned middle piece. -/
theorem C84_align (s : Elems) (usz ualign : Nat) (hsz : 0 < s.size) (hu : 0 < usz) (ha : 0 < ualign) (hd : s.size ∣ s.bytes.length) :
    (align s usz ualign).1.bytes ++ (align s usz ualign).2.1.bytes ++ (align s usz ualign).2.2.bytes = s.bytes ∧
    (align s usz ualign).1.addr = s.addr ∧
    (align s usz ualign).2.1.addr % ualign = 0 ∧
    ((align s usz ualign).2.1.bytes ≠ [] →
      (align s usz ualign).2.1.addr = s.addr + (align s usz ualign).1.bytes.length) ∧
    ((align s usz ualign).2.2.bytes ≠ [] →
      (align s usz ualign).2.2.addr = s.addr + (align s usz ualign).1.bytes.length + (align s usz ualign).2.1.bytes.length) ∧
    (align s usz ualign).2.1.size = usz ∧ (align s usz ualign).1.size = s.size ∧ (align s usz ualign).2.2.size = s.size ∧
    ∃ l m r, (align s usz ualign).1.bytes.length = l * s.size ∧ (align s usz ualign).2.1.bytes.length = m * usz ∧
      (align s usz ualign).2.2.bytes.length = r * s.size ∧
      ∀ l' m' r', Spec.Cut s.addr s.size s.len usz ualign l' m' r' → m' ≤ m := by
  obtain ⟨len, hlen⟩ := hd
  have elen : s.len = len := by rw [Elems.len, hlen, Nat.mul_div_cancel_left _ hsz]
  have hlen' : s.bytes.length = len * s.size := by rw [hlen, Nat.mul_comm]
  have trivialCase : ∀ (_ : ∀ l' m' r', Spec.Cut s.addr s.size s.len usz ualign l' m' r' → m' ≤ 0),
      (∃ l m r,
      s.bytes.length = l * s.size ∧ ([] : List Byte).length = m * usz ∧ ([] : List Byte).length = r * s.size ∧
      (∀ l' m' r', Spec.Cut s.addr s.size s.len usz ualign l' m' r' → m' ≤ m)) := by
    intro hmax
    exact ⟨len, 0, 0, hlen', by simp, by simp, hmax⟩
  cases ho : alignOffset s.addr s.size ualign with
  | none =>
    simp only [align, ho]
    refine ⟨by simp, by trivial, Nat.mod_self _, fun h => absurd rfl h, fun h => absurd rfl h, by trivial, by trivial, by trivial, trivialCase ?_⟩
    intro l' m' r' hc
    by_contra hm
    exact alignOffset_none ho ha l' (hc.2 (by omega))
  | some k =>
    have hk := alignOffset_some ho
    have hmin : ∀ l' m' r', Spec.Cut s.addr s.size s.len usz ualign l' m' r' → m' ≠ 0 → k ≤ l' ∧ l' ≤ len := by
      intro l' m' r' hc hm
      constructor
      · by_contra h
        exact hk.2 l' (by omega) (hc.2 hm)
      · have h1 := hc.1
        rw [elen] at h1
        have : l' * s.size ≤ len * s.size := by omega
        exact Nat.le_of_mul_le_mul_right this hsz
    by_cases hl : s.len < k
    · simp only [align, ho, if_pos hl]
      refine ⟨by simp, by trivial, Nat.mod_self _, fun h => absurd rfl h, fun h => absurd rfl h, by trivial, by trivial, by trivial, trivialCase ?_⟩
      intro l' m' r' hc
      by_contra hm
      have := hmin l' m' r' hc (by omega)
      omega
    · simp only [align, ho, if_neg hl]
      rw [elen] at hl ⊢
      have hkl : k ≤ len := by omega
      generalize hg : Nat.gcd s.size usz = g
      have hgpos : 0 < g := hg ▸ Nat.gcd_pos_of_pos_left _ hsz
      obtain ⟨us, hus⟩ : g ∣ s.size := hg ▸ Nat.gcd_dvd_left _ _
      obtain ⟨ts, hts⟩ : g ∣ usz := hg ▸ Nat.gcd_dvd_right _ _
      have eus : s.size / g = us := by rw [hus, Nat.mul_div_cancel_left _ hgpos]
      have ets : usz / g = ts := by rw [hts, Nat.mul_div_cancel_left _ hgpos]
      rw [eus, ets]
      have htspos : 0 < ts := by
        rcases Nat.eq_zero_or_pos ts with h | h
        · subst h; omega
        · exact h
      have huspos : 0 < us := by
        rcases Nat.eq_zero_or_pos us with h | h
        · subst h; omega
        · exact h
      have hcop : Nat.Coprime us ts := by
        have : Nat.gcd (g * us) (g * ts) = g := by rw [← hus, ← hts, hg]
        rw [Nat.gcd_mul_left] at this
        exact Nat.eq_of_mul_eq_mul_left hgpos (by rw [this, Nat.mul_one])
      generalize hn : len - k = n
      have hlen2 : len = k + n := by omega
      have hmod := Nat.div_add_mod n ts
      have hmodlt := Nat.mod_lt n htspos
      generalize hq : n / ts = q at *
      generalize hr : n % ts = r at *
      -- the middle part takes `q * ts` elements
      have emid : q * us * usz = q * ts * s.size := by rw [hts, hus]; ring
      have enr : n - r = q * ts := by rw [← hmod, Nat.mul_comm]; omega
      have etot : s.bytes.length = k * s.size + (q * ts * s.size + r * s.size) := by
        rw [hlen', hlen2, ← hmod]; ring
      rw [enr]
      have hL : (s.bytes.take (k * s.size)).length = k * s.size := by rw [List.length_take]; omega
      have hM : ((s.bytes.drop (k * s.size)).take (q * us * usz)).length = q * us * usz := by
        rw [List.length_take, List.length_drop]; omega
      have hR : ((s.bytes.drop (k * s.size)).drop (q * ts * s.size)).length = r * s.size := by
        rw [List.length_drop, List.length_drop]; omega
      refine ⟨?_, by trivial, hk.1, fun _ => by rw [hL], fun _ => by rw [hL, hM, emid], by trivial, by trivial, by trivial, k, q * us, r, hL, hM, hR, ?_⟩
      · have e : (s.bytes.drop (k * s.size)).take (q * us * usz) ++ (s.bytes.drop (k * s.size)).drop (q * ts * s.size) =
            s.bytes.drop (k * s.size) := by
          rw [emid]; exact List.take_append_drop _ _
        rw [List.append_assoc, e, List.take_append_drop]

      · intro l' m' r' hc
        by_cases hm : m' = 0
        · omega
        · obtain ⟨h1, h2⟩ := hmin l' m' r' (by rw [elen]; exact hc) hm
          -- `m' * usz` is a whole number of elements, so `m'` is a multiple of `us`
          have hcut := hc.1
          obtain ⟨x, hx⟩ : ∃ x, m' * usz = x * s.size := by
            refine ⟨len - l' - r', ?_⟩
            have : len * s.size = l' * s.size + (len - l') * s.size := by rw [← Nat.add_mul]; congr 1; omega
            have h3 : m' * usz + r' * s.size = (len - l') * s.size := by omega
            have h4 : r' ≤ len - l' := Nat.le_of_mul_le_mul_right (by omega : r' * s.size ≤ (len - l') * s.size) hsz
            have h5 : (len - l') * s.size = (len - l' - r') * s.size + r' * s.size := by rw [← Nat.add_mul]; congr 1; omega
            omega
          have hx' : m' * ts = x * us := by
            have : g * (m' * ts) = g * (x * us) := by
              calc g * (m' * ts) = m' * usz := by rw [hts]; ring
                _ = x * s.size := hx
                _ = g * (x * us) := by rw [hus]; ring
            exact Nat.eq_of_mul_eq_mul_left hgpos this
          obtain ⟨y, hy⟩ : us ∣ m' := hcop.dvd_of_dvd_mul_right (Dvd.intro_left x hx'.symm)
          have hxy : x = y * ts := by
            have : us * x = us * (y * ts) := by rw [Nat.mul_comm us x, ← hx', hy]; ring
            exact Nat.eq_of_mul_eq_mul_left huspos this
          have hxn : x ≤ n := by
            have : x * s.size ≤ (len - l') * s.size := by
              have : len * s.size = l' * s.size + (len - l') * s.size := by rw [← Nat.add_mul]; congr 1; omega
              omega
            have := Nat.le_of_mul_le_mul_right this hsz
            omega
          have hyq : y ≤ q := by
            rw [← hq]
            rw [Nat.le_div_iff_mul_le htspos]
            omega
          rw [hy, Nat.mul_comm]
          exact Nat.mul_le_mul_right _ hyq

example : (align ⟨13, 1, List.replicate 30 (7 : Byte)⟩ 8 8).1.bytes.length = 3 ∧
    (align ⟨13, 1, List.replicate 30 (7 : Byte)⟩ 8 8).2.1.bytes.length = 24 ∧
    (align ⟨13, 1, List.replicate 30 (7 : Byte)⟩ 8 8).2.2.bytes.length = 3 := by decide +kernel

end Simd.Tools

/-! ### print_fn_table -/

namespace Simd.Spec

/-- What a terminal shows: every character with its colour (`none`: the default one). `ESC [1;3dm` switches to bold in colour `d`, `ESC [0m`
back to the default. -/
def screen : Option Nat → List Char → List (Char × Option Nat)
  | _, '\x1b' :: '[' :: '0' :: 'm' :: t => screen none t
  | _, '\x1b' :: '[' :: '1' :: ';' :: '3' :: d :: 'm' :: t => screen (some (d.toNat - 48)) t
  | col, c :: t => (c, col) :: screen col t
  | _, [] => []

/-- Hexadecimal digits. -/
def digits16 : List Char := "0123456789ABCDEF".toList

/-- Text in the default colour. -/
def plain (t : List Char) : List (Char × Option Nat) := t.map fun c => (c, none)

/-- The cell of a value: two digits, in red (1) for primary arguments and otherwise in cyan (6) for values from 0x80 on and in green (2) for smaller ones,
and two spaces. -/
def cell (primary : Bool) (v : Nat) : List (Char × Option Nat) :=
  let colour := if primary then 1 else if 0x80 ≤ v then 6 else 2
  [(digits16.getD (v / 16) ' ', some colour), (digits16.getD (v % 16) ' ', some colour), (' ', none), (' ', none)]

/-- The table of `f`: a header, then for every high half `r` of the argument a line with its digit and the 16 cells. -/
def fnTable (primary : Byte → Bool) (f : Byte → Byte) : List (Char × Option Nat) :=
  plain "     0   1   2   3   4   5   6   7   8   9   A   B   C   D   E   F\n".toList ++
  (List.range 16).flatMap (fun r =>
    plain ["0123456789abcdef".toList.getD r ' ', ' ', '|', ' '] ++
    (List.range 16).flatMap (fun c => cell (primary (BitVec.ofNat 8 (16 * r + c))) (f (BitVec.ofNat 8 (16 * r + c))).toNat) ++
    plain ['\n']) ++
  plain ['\n']

end Simd.Spec

namespace Simd.Tools

theorem screen_plain (t u : List Char) (h : ∀ c ∈ t, c ≠ '\x1b') : Spec.screen none (t ++ u) = Spec.plain t ++ Spec.screen none u := by
  induction t with
  | nil => rfl
  | cons c t ih =>
    have hc : c ≠ '\x1b' := h c (by simp)
    rw [List.cons_append, Spec.screen]
    · rw [ih (fun x hx => h x (by simp [hx]))]; rfl
    · rintro t' rfl; exact absurd rfl hc
    · rintro d t' rfl; exact absurd rfl hc

theorem flatMap_eq {α β : Type} {l : List α} {f g : α → List β} (h : ∀ a ∈ l, f a = g a) : l.flatMap f = l.flatMap g := by
  induction l with
  | nil => rfl
  | cons a l ih => rw [List.flatMap_cons, List.flatMap_cons, h a (by simp), ih fun b hb => h b (by simp [hb])]

theorem flatMap_rotate {α β : Type} (l : List α) (x : List β) (f : α → List β) : l.flatMap (fun a => x ++ f a) ++ x = x ++ l.flatMap (fun a => f a ++ x) := by
  induction l with
  | nil => simp
  | cons a l ih => simp only [List.flatMap_cons, List.append_assoc, ih]

theorem lit_red : "\x1b[1;31m".toList = ['\x1b', '[', '1', ';', '3', '1', 'm'] := by decide
theorem lit_cyan : "\x1b[1;36m".toList = ['\x1b', '[', '1', ';', '3', '6', 'm'] := by decide
theorem lit_green : "\x1b[1;32m".toList = ['\x1b', '[', '1', ';', '3', '2', 'm'] := by decide
theorem lit_reset : "\x1b[0m  ".toList = ['\x1b', '[', '0', 'm', ' ', ' '] := by decide

theorem hex2_eq (v : Byte) : hex2 v = [Spec.digits16.getD (v.toNat / 16) ' ', Spec.digits16.getD (v.toNat % 16) ' '] := by
  have h : ∀ v : Fin 256, hex2 (BitVec.ofFin v) = [Spec.digits16.getD (v.val / 16) ' ', Spec.digits16.getD (v.val % 16) ' '] := by decide +kernel
  exact h v.toFin

theorem digits16_ne (n : Nat) : Spec.digits16.getD n ' ' ≠ '\x1b' := by
  have h : ∀ c ∈ Spec.digits16, c ≠ '\x1b' := by decide
  rw [List.getD_eq_getElem?_getD]
  cases e : Spec.digits16[n]? with
  | none => decide
  | some c => exact h c (List.mem_of_getElem? e)

theorem screen_cell (col : Nat) (d : Char) (hd : d.toNat - 48 = col) (a b : Char) (ha : a ≠ '\x1b') (hb : b ≠ '\x1b') (t : List Char) :
    Spec.screen none (['\x1b', '[', '1', ';', '3', d, 'm'] ++ [a, b] ++ ['\x1b', '[', '0', 'm', ' ', ' '] ++ t) =
    [(a, some col), (b, some col), (' ', none), (' ', none)] ++ Spec.screen none t := by
  have e1 : ∀ u, Spec.screen (some col) (a :: u) = (a, some col) :: Spec.screen (some col) u := by
    intro u
    rw [Spec.screen]
    · rintro t' rfl; exact absurd rfl ha
    · rintro d t' rfl; exact absurd rfl ha
  have e2 : ∀ u, Spec.screen (some col) (b :: u) = (b, some col) :: Spec.screen (some col) u := by
    intro u
    rw [Spec.screen]
    · rintro t' rfl; exact absurd rfl hb
    · rintro d t' rfl; exact absurd rfl hb
  have e3 : ∀ u, Spec.screen none (' ' :: u) = (' ', none) :: Spec.screen none u := by
    intro u
    rw [Spec.screen]
    · rintro t' h; exact absurd h (by decide)
    · rintro d t' h; exact absurd h (by decide)
  simp only [List.cons_append, List.nil_append]
  rw [Spec.screen, hd, e1, e2, Spec.screen, e3, e3]

theorem screen_entry (p : Byte → Bool) (f : Byte → Byte) (c : Byte) (t : List Char) :
    Spec.screen none (printEntry p f c ++ t) =
    (if c.toNat % 16 = 0 then Spec.plain ['\n', "0123456789abcdef".toList.getD (c.toNat / 16) ' ', ' ', '|', ' '] else []) ++
    Spec.cell (p c) (f c).toNat ++ Spec.screen none t := by
  have hc : (c &&& 0x0f = 0 ↔ c.toNat % 16 = 0) ∧ lowerDigit (c >>> 4).toNat = "0123456789abcdef".toList.getD (c.toNat / 16) ' ' ∧
      lowerDigit (c >>> 4).toNat ≠ '\x1b' := by
    have h : ∀ c : Fin 256, (BitVec.ofFin c &&& 0x0f#8 = 0 ↔ c.val % 16 = 0) ∧
        lowerDigit ((BitVec.ofFin c : Byte) >>> 4).toNat = "0123456789abcdef".toList.getD (c.val / 16) ' ' ∧ lowerDigit ((BitVec.ofFin c : Byte) >>> 4).toNat ≠ '\x1b' := by
      decide +kernel
    exact h c.toFin
  have hcell : ∀ t, Spec.screen none ((if p c then "\x1b[1;31m".toList ++ hex2 (f c) ++ "\x1b[0m  ".toList
      else if 0x80 ≤ (f c).toNat then "\x1b[1;36m".toList ++ hex2 (f c) ++ "\x1b[0m  ".toList
      else "\x1b[1;32m".toList ++ hex2 (f c) ++ "\x1b[0m  ".toList) ++ t) = Spec.cell (p c) (f c).toNat ++ Spec.screen none t := by
    intro t
    rw [lit_red, lit_cyan, lit_green, lit_reset, hex2_eq]
    simp only [Spec.cell]
    split
    · rw [screen_cell 1 '1' (by decide) _ _ (digits16_ne _) (digits16_ne _)]
    · split
      · rw [screen_cell 6 '6' (by decide) _ _ (digits16_ne _) (digits16_ne _)]
      · rw [screen_cell 2 '2' (by decide) _ _ (digits16_ne _) (digits16_ne _)]
  simp only [printEntry]
  rw [List.append_assoc]
  by_cases h : c.toNat % 16 = 0
  · rw [if_pos h, if_pos (hc.1.2 h), screen_plain, hcell, hc.2.1, List.append_assoc]
    · rfl
    · intro x hx
      simp only [show " | ".toList = [' ', '|', ' '] by decide, List.mem_append, List.mem_cons, List.not_mem_nil, or_false] at hx
      rcases hx with (rfl | rfl) | rfl | rfl | rfl
      · decide
      · exact hc.2.2
      all_goals decide
  · rw [if_neg h, if_neg (fun h' => h (hc.1.1 h')), List.nil_append, hcell, List.nil_append]

theorem printLoop_eq (p : Byte → Bool) (f : Byte → Byte) (n c : Nat) (out : List Char) :
    printLoop p f n c out = out ++ (List.range n).flatMap fun i => printEntry p f (BitVec.ofNat 8 (c + i)) := by
  induction n generalizing c out with
  | zero => simp [printLoop]
  | succ n ih =>
    rw [printLoop, ih, List.range_succ_eq_map, List.flatMap_cons, List.append_assoc]
    congr 2
    rw [List.flatMap_map]
    apply flatMap_eq
    intro i _
    congr 2
    omega

theorem screen_entries (p : Byte → Bool) (f : Byte → Byte) (cs : List Nat) (t : List Char) :
    Spec.screen none (cs.flatMap (fun i => printEntry p f (BitVec.ofNat 8 i)) ++ t) =
    cs.flatMap (fun i => (if (BitVec.ofNat 8 i).toNat % 16 = 0 then
      Spec.plain ['\n', "0123456789abcdef".toList.getD ((BitVec.ofNat 8 i).toNat / 16) ' ', ' ', '|', ' '] else []) ++
    Spec.cell (p (BitVec.ofNat 8 i)) (f (BitVec.ofNat 8 i)).toNat) ++ Spec.screen none t := by
  induction cs with
  | nil => rfl
  | cons c cs ih => rw [List.flatMap_cons, List.append_assoc, screen_entry, ih, List.flatMap_cons]; simp only [List.append_assoc]

/-- C84: a terminal shows the table of the function. -/
theorem C84_print_fn_table (is_primary : Byte → Bool) (f : Byte → Byte) :
    Spec.screen none (print_fn_table is_primary f) = Spec.fnTable is_primary f := by
  rw [print_fn_table, printLoop_eq]
  rw [List.append_assoc, screen_plain _ _ (by decide)]
  simp only [Nat.zero_add]
  rw [screen_entries]
  have er : List.range 256 = (List.range 16).flatMap fun r => (List.range 16).map fun c => 16 * r + c := by decide +kernel
  rw [er, List.flatMap_assoc]
  have hrow : ∀ r ∈ List.range 16, (((List.range 16).map fun c => 16 * r + c).flatMap fun i =>
      (if (BitVec.ofNat 8 i).toNat % 16 = 0 then
      Spec.plain ['\n', "0123456789abcdef".toList.getD ((BitVec.ofNat 8 i).toNat / 16) ' ', ' ', '|', ' '] else []) ++
      Spec.cell (is_primary (BitVec.ofNat 8 i)) (f (BitVec.ofNat 8 i)).toNat) =
      Spec.plain ['\n'] ++ (Spec.plain ["0123456789abcdef".toList.getD r ' ', ' ', '|', ' '] ++
      (List.range 16).flatMap (fun c => Spec.cell (is_primary (BitVec.ofNat 8 (16 * r + c))) (f (BitVec.ofNat 8 (16 * r + c))).toNat)) := by
    intro r hr
    have hr := List.mem_range.1 hr
    rw [List.flatMap_map]
    rw [show List.range 16 = 0 :: (List.range 15).map Nat.succ from List.range_succ_eq_map]
    rw [List.flatMap_cons, List.flatMap_cons]
    have e0 : (BitVec.ofNat 8 (16 * r + 0)).toNat = 16 * r := by simp; omega
    rw [e0, if_pos (by omega), show 16 * r / 16 = r by omega]
    rw [← List.append_assoc, ← List.append_assoc, List.append_assoc, List.append_assoc, List.append_assoc]
    have et : ∀ a b : List (Char × Option Nat), a = b → ∀ x y, x ++ (y ++ a) = x ++ (y ++ b) := by rintro a _ rfl x y; rfl
    apply et
    rw [List.flatMap_map, List.flatMap_map]
    apply flatMap_eq
    intro c hc
    have hc := List.mem_range.1 hc
    have e1 : (BitVec.ofNat 8 (16 * r + c.succ)).toNat = 16 * r + c.succ := by simp; omega
    rw [e1, if_neg (by omega), List.nil_append]
  rw [flatMap_eq hrow]
  have hn : Spec.screen none ['\n', '\n'] = Spec.plain ['\n'] ++ Spec.plain ['\n'] := by decide
  rw [hn, ← List.append_assoc, ← List.append_assoc, List.append_assoc (Spec.plain _), flatMap_rotate]
  rw [Spec.fnTable, show "     0   1   2   3   4   5   6   7   8   9   A   B   C   D   E   F\n".toList =
    "     0   1   2   3   4   5   6   7   8   9   A   B   C   D   E   F".toList ++ ['\n'] by decide]
  simp only [Spec.plain, List.map_append, List.append_assoc]
example : ((Spec.screen none (print_fn_table (fun c => c == 0x41) (fun c => c + 1))).drop 351).take 8 =
    [('4', some 1), ('2', some 1), (' ', none), (' ', none), ('4', some 2), ('3', some 2), (' ', none), (' ', none)] := by
  rw [C84_print_fn_table]; decide +kernel

/-! ### vectors -/

theorem toList_split {n a b : Nat} (h : n = a + b) (v : Vec n) (p : Vec a) (q : Vec b) (hp : ∀ i, i < a → p.lane i = v.lane i)
    (hq : ∀ i, i < b → q.lane i = v.lane (a + i)) : p.toList ++ q.toList = v.toList := by
  subst h
  simp only [Vec.toList, List.range_add, List.map_append, List.map_map]
  congr 1
  · exact List.map_congr_left fun i hi => hp i (List.mem_range.1 hi)
  · exact List.map_congr_left fun i hi => hq i (List.mem_range.1 hi)

/-- C84: the conversions of vectors keep the bytes in their order: `as_bytes` gives back what `from_bytes` was given; the halves of a vector
are the halves of its bytes; joining, doubling and `to_u64` (little-endian) likewise. -/
theorem C84_vectors :
    (∀ (n : Nat) (bs : List Byte), bs.length = n → (Vec.ofList bs : Vec n).toList = bs) ∧
    (∀ a : V128, a.lo64.toList ++ a.hi64.toList = a.toList) ∧
    (∀ a : V128, a.x2.toList = a.toList ++ a.toList) ∧
    (∀ a b : V128, (join a b).toList = a.toList ++ b.toList) ∧
    (∀ a : V256, a.lo.toList ++ a.hi.toList = a.toList) ∧
    (∀ a : V256, (x2_512 a).toList = a.toList ++ a.toList) ∧
    (∀ a b : V256, (from_v256x2 a b).toList = a.toList ++ b.toList) ∧
    (∀ a : V512, (to_v256x2 a).1.toList ++ (to_v256x2 a).2.toList = a.toList) ∧
    (∀ bs : List Byte, bs.length = 32 → (double_bytes_512 bs).toList = bs ++ bs) ∧
    (∀ a : V64, (to_u64 a).toNat = Spec.leValue a.toList) := by
  have h1 : ∀ (n : Nat) (bs : List Byte), bs.length = n → (Vec.ofList bs : Vec n).toList = bs := by
    rintro n bs rfl
    simp only [Vec.toList, Vec.ofList]
    apply List.ext_getElem (by simp)
    intro i h1 h2
    simp [List.getD_eq_getElem?_getD, List.getElem?_eq_getElem h2]
  have hj : ∀ a b : V128, (join a b).toList = a.toList ++ b.toList := fun a b =>
    (toList_split (n := 32) rfl (join a b) a b (fun i hi => by simp only [join]; rw [if_pos hi]) fun i hi => by
      simp only [join]; rw [if_neg (by omega)]; congr 1; omega).symm
  have hj2 : ∀ a b : V256, (from_v256x2 a b).toList = a.toList ++ b.toList := fun a b =>
    (toList_split (n := 64) rfl (from_v256x2 a b) a b (fun i hi => by simp only [from_v256x2]; rw [if_pos hi]) fun i hi => by
      simp only [from_v256x2]; rw [if_neg (by omega)]; congr 1; omega).symm
  refine ⟨h1, fun a => toList_split rfl _ _ _ (fun _ _ => rfl) (fun _ _ => rfl), fun a => hj a a, hj,
    fun a => toList_split rfl _ _ _ (fun _ _ => rfl) (fun _ _ => rfl), fun a => hj2 a a, hj2,
    fun a => toList_split rfl _ _ _ (fun _ _ => rfl) (fun _ _ => rfl), fun bs hb => h1 _ _ (by simp [hb]), fun a => ?_⟩
  have e : a.toList = [a.lane 0, a.lane 1, a.lane 2, a.lane 3, a.lane 4, a.lane 5, a.lane 6, a.lane 7] := rfl
  rw [e]
  simp only [to_u64, Spec.leValue, BitVec.toNat_append]
  have hb : ∀ i, (a.lane i).toNat < 256 := fun i => (a.lane i).isLt
  have hs : ∀ x y : Nat, y < 256 → x <<< 8 ||| y = 256 * x + y := by
    intro x y hy
    rw [← Nat.shiftLeft_add_eq_or_of_lt (b := y) (i := 8) (by omega), Nat.shiftLeft_eq]; omega
  rw [hs _ _ (hb 6), hs _ _ (hb 5), hs _ _ (hb 4), hs _ _ (hb 3), hs _ _ (hb 2), hs _ _ (hb 1), hs _ _ (hb 0)]
  omega

example : (to_u64 (Vec.ofList [1, 2, 0, 0, 0, 0, 0, 0x80] : V64)).toNat = 0x8000000000000201 := by decide +kernel

end Simd.Tools
