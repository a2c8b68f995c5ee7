import Verif.Spec.CallMeans
import Verif.Props.Concurrent
/-
From the theorems about the functions on slices to one statement about all of them.
-/
namespace Simd
open Spec

theorem Spec.Wrote.done {m m' : Mem} {q : Ptr} {ys : List Byte} {d : Nat} (h : Wrote m m' q ys) (hw : Writable m q d) (hl : ys.length ≤ d) :
    ys.length ≤ d ∧ Reads m' q ys ∧ OnlyChanged m m' q ys.length := by
  obtain ⟨h1, h2, h3, h4⟩ := h
  refine ⟨hl, ⟨?_, h3⟩, h1, h2, fun b o hs => ?_, h4⟩
  · rw [h2]; unfold Writable at hw; omega
  · by_cases hi : ∀ i, i < ys.length → ¬ (b = q.buf ∧ o = q.off + i)
    · rw [h4 b o hi]; exact hs
    · push Not at hi
      obtain ⟨i, hi, rfl, rfl⟩ := hi
      rw [h3 i hi]; rfl

theorem Spec.OnlyChanged.refl (m : Mem) (q : Ptr) (n : Nat) : OnlyChanged m m q n := ⟨rfl, rfl, fun _ _ h => h, fun _ _ _ => rfl⟩

theorem Spec.OnlyChanged.mono {m m' : Mem} {q : Ptr} {n k : Nat} (h : OnlyChanged m m' q n) (hk : n ≤ k) : OnlyChanged m m' q k :=
  ⟨h.1, h.2.1, h.2.2.1, fun b o hn => h.2.2.2 b o fun i hi => hn i (by omega)⟩

theorem Spec.Writable.nothing {m : Mem} {q : Ptr} {n : Nat} (hw : Writable m q n) : ([] : List Byte).length ≤ n ∧ Reads m q [] ∧ OnlyChanged m m q 0 :=
  ⟨Nat.zero_le _, ⟨by unfold Writable at hw; simp; omega, fun i hi => absurd hi (by simp)⟩, .refl _ _ _⟩

theorem swapB_reversed {n k : Nat} (hn : 0 < n) {xs : List Byte} (hl : xs.length = n * k) : GroupsReversed n xs (Unicode.swapB n xs) := by
  have hd : xs.length / n = k := by rw [hl, Nat.mul_div_cancel_left _ hn]
  refine ⟨by rw [Unicode.swapB_length n hn hl, hl], fun i hi => ?_⟩
  unfold Unicode.swapB
  rw [blocks_getElem? (fun f => Unicode.revG_length n f) (by rw [hd, ← hl]; exact hi)]
  have hm := Nat.mod_lt i hn
  unfold Unicode.revG
  rw [List.getElem?_map, List.getElem?_range hm]
  have hq : i / n < k := by rw [Nat.div_lt_iff_lt_mul hn, Nat.mul_comm, ← hl]; exact hi
  have : n * (i / n) + n ≤ n * k := by rw [← Nat.mul_succ]; exact Nat.mul_le_mul_left _ hq
  have hlt : n * (i / n) + (n - 1 - i % n) < xs.length := by omega
  simp only [Option.map_some]
  rw [List.getD_eq_getElem?_getD, List.getElem?_eq_getElem hlt]
  rfl

theorem Spec.GroupsReversed.unique {n : Nat} {xs ys zs : List Byte} (h : GroupsReversed n xs ys) (h' : GroupsReversed n xs zs) : ys = zs :=
  List.ext_getElem? fun k => by
    by_cases hk : k < xs.length
    · rw [h.2 k hk, h'.2 k hk]
    · rw [List.getElem?_eq_none (by rw [h.1]; omega), List.getElem?_eq_none (by rw [h'.1]; omega)]

/-- Every sequence of bytes of the right length is one of words. -/
theorem words_of_bytes {k : Nat} : ∀ {xs : List Byte}, xs.length = 4 * k → ∃ ws : List (BitVec 32), wordBytes 4 ws = xs := by
  induction k with
  | zero => intro xs h; exact ⟨[], (List.eq_nil_of_length_eq_zero (by omega)).symm⟩
  | succ k ih =>
    intro xs h
    match xs, h with
    | a :: b :: c :: d :: xs, h =>
      obtain ⟨ws, hw⟩ := ih (xs := xs) (by simp at h; omega)
      refine ⟨BitVec.ofNat 32 (a.toNat + 256 * b.toNat + 65536 * c.toNat + 16777216 * d.toNat) :: ws, ?_⟩
      rw [Unicode.wordBytes_cons, hw]
      have ha := a.isLt; have hb := b.isLt; have hc := c.isLt; have hd := d.isLt
      have e : ∀ (x : Byte) j, (a.toNat + 256 * b.toNat + 65536 * c.toNat + 16777216 * d.toNat) / 256 ^ j % 256 = x.toNat →
          wordByte (BitVec.ofNat 32 (a.toNat + 256 * b.toNat + 65536 * c.toNat + 16777216 * d.toNat)) j = x := fun x j hx => by
        apply BitVec.eq_of_toNat_eq
        have hlt : a.toNat + 256 * b.toNat + 65536 * c.toNat + 16777216 * d.toNat < 2 ^ 32 := by omega
        rw [Unicode.wordByte_toNat, BitVec.toNat_ofNat, Nat.mod_eq_of_lt hlt]
        exact hx
      show [wordByte _ 0, wordByte _ 1, wordByte _ 2, wordByte _ 3] ++ xs = _
      rw [e a 0 (by simp only [Nat.reducePow]; omega), e b 1 (by simp only [Nat.reducePow]; omega), e c 2 (by simp only [Nat.reducePow]; omega), e d 3 (by simp only [Nat.reducePow]; omega)]
      rfl

theorem scalarsOk_iff {xs : List Byte} {k : Nat} (h : xs.length = 4 * k) : Unicode.scalarsOk xs = true ↔ ∃ ws : List (BitVec 32), wordBytes 4 ws = xs ∧ ∀ w ∈ ws, IsScalar w := by
  constructor
  · intro hs
    obtain ⟨ws, rfl⟩ := words_of_bytes h
    rw [Unicode.scalarsOk_words] at hs
    exact ⟨ws, rfl, of_decide_eq_true hs⟩
  · rintro ⟨ws, rfl, hw⟩
    rw [Unicode.scalarsOk_words]; exact decide_eq_true hw

theorem forgiving_le {xs ys : List Byte} (h : forgivingDecode xs = some ys) : ys.length ≤ xs.length := by
  have := Base64.forgiving_decode_wp (m := Mem.ofBufs [xs.map some, List.replicate xs.length none]) none (di := none) (by simp) (p := ⟨0, 0⟩) (q := ⟨1, 0⟩) (xs := xs) (k := xs.length)
    (hasBytes_ofBufs' rfl) (canWrite_ofBufs (by simp)) (Nat.le_refl _) (.inl (by simp))
  rcases wp_out this with ⟨_, _, _, zs, h1, _, _, _, h2⟩ | ⟨_, _, h1, _⟩
  · rw [h] at h1; cases h1; exact h2
  · rw [h] at h1; cases h1

/-! ### One meaning -/

theorem Base64.variant_unique {config url pad url' pad'} (h : Base64.IsVariant config url pad) (h' : Base64.IsVariant config url' pad') : url = url' ∧ pad = pad' := by
  rcases h with ⟨h, rfl, rfl⟩ | ⟨h, rfl, rfl⟩ | ⟨h, rfl, rfl⟩ | ⟨h, rfl, rfl⟩ <;> rcases h' with ⟨h', rfl, rfl⟩ | ⟨h', rfl, rfl⟩ | ⟨h', rfl, rfl⟩ | ⟨h', rfl, rfl⟩ <;>
    first | exact ⟨rfl, rfl⟩ | (rw [h] at h'; cases h')

theorem Base32.variant_unique {config hex pad hex' pad'} (h : Base32.IsVariant config hex pad) (h' : Base32.IsVariant config hex' pad') : hex = hex' ∧ pad = pad' := by
  rcases h with ⟨h, rfl, rfl⟩ | ⟨h, rfl, rfl⟩ | ⟨h, rfl, rfl⟩ | ⟨h, rfl, rfl⟩ <;> rcases h' with ⟨h', rfl, rfl⟩ | ⟨h', rfl, rfl⟩ | ⟨h', rfl, rfl⟩ | ⟨h', rfl, rfl⟩ <;>
    first | exact ⟨rfl, rfl⟩ | (rw [h] at h'; cases h')

/-- A property that at most one value has. -/
theorem theOnly_unique {P : List Byte → Prop} (hP : ∀ ys zs, P ys → P zs → ys = zs) {r r' : Option (List Byte)} (h : TheOnly P r) (h' : TheOnly P r') : r = r' := by
  cases r with
  | none => cases r' with
    | none => rfl
    | some zs => exact absurd ⟨zs, h'⟩ h
  | some ys => cases r' with
    | none => exact absurd ⟨ys, h⟩ h'
    | some zs => rw [hP ys zs h h']

theorem inverse_unique {enc : List Byte → List Byte} (hi : ∀ ys zs, enc ys = enc zs → ys = zs) {xs : List Byte} {r r' : Option (List Byte)} (h : Inverse enc xs r) (h' : Inverse enc xs r') : r = r' :=
  theOnly_unique (P := fun ys => enc ys = xs) (fun ys zs h1 h2 => hi ys zs (h1.trans h2.symm)) (by cases r <;> exact h) (by cases r' <;> exact h')

theorem fromHex_unique {xs : List Byte} {r r' : Option (List Byte)} (h : FromHex xs r) (h' : FromHex xs r') : r = r' :=
  theOnly_unique (P := IsHexOf xs) (fun _ _ h1 h2 => Hex.isHexOf_unique h1 h2) (by cases r <;> exact h) (by cases r' <;> exact h')

theorem Base64.IsVariant.injective {config url pad} (hv : Base64.IsVariant config url pad) (ys zs : List Byte) (h : base64 url pad ys = base64 url pad zs) : ys = zs :=
  Option.some.inj (((hv.full _ ys).2 rfl).symm.trans ((hv.full _ zs).2 h.symm))

theorem Base32.IsVariant.injective {config hex pad} (hv : Base32.IsVariant config hex pad) (ys zs : List Byte) (h : base32 hex pad ys = base32 hex pad zs) : ys = zs :=
  Option.some.inj (((hv.full _ ys).2 rfl).symm.trans ((hv.full _ zs).2 h.symm))

theorem means_function {α : Type} (c : Call α) (xs : List Byte) (d : Nat) (res : Option (List Byte)) : CallMeans xs d res c ↔ CallMeans xs d res (function c) := by cases c <;> exact Iff.rfl

theorem Spec.CallMeans.unique {α : Type} {c : Call α} {xs : List Byte} {d : Nat} {r r' : Option (List Byte)} (h : CallMeans xs d r c) (h' : CallMeans xs d r' c) : r = r' := by
  cases c with
  | base64Encode | base64Decode | base64Inplace | base64Check =>
    obtain ⟨url, pad, hv, h⟩ := h
    obtain ⟨url', pad', hv', h'⟩ := h'
    obtain ⟨rfl, rfl⟩ := Base64.variant_unique hv hv'
    first
    | exact h.trans h'.symm
    | exact inverse_unique hv.injective h h'
    | (obtain ⟨s, h1, h2⟩ := h
       obtain ⟨s', h1', h2'⟩ := h'
       obtain rfl := inverse_unique hv.injective h1 h1'
       exact h2.trans h2'.symm)
  | base32Encode | base32Decode | base32Inplace | base32Check =>
    obtain ⟨url, pad, hv, h⟩ := h
    obtain ⟨url', pad', hv', h'⟩ := h'
    obtain ⟨rfl, rfl⟩ := Base32.variant_unique hv hv'
    first
    | exact h.trans h'.symm
    | exact inverse_unique hv.injective h h'
    | (obtain ⟨s, h1, h2⟩ := h
       obtain ⟨s', h1', h2'⟩ := h'
       obtain rfl := inverse_unique hv.injective h1 h1'
       exact h2.trans h2'.symm)
  | forgiving | forgivingInplace | hexEncode | hexCheck | uuidFormatSimple | uuidFormatHyphenated | isAscii | isUtf32le => exact Eq.trans h (Eq.symm h')
  | hexDecode =>
    obtain ⟨s, h1, h2⟩ := h
    obtain ⟨s', h1', h2'⟩ := h'
    obtain rfl := fromHex_unique h1 h1'
    exact h2.trans h2'.symm
  | hexInplace => exact fromHex_unique h h'
  | uuidParse => exact theOnly_unique (fun u v h1 h2 => Option.some.inj (((Uuid.parseS_iff _ u).2 h1).symm.trans ((Uuid.parseS_iff _ v).2 h2))) h h'
  | uuidParseSimple => exact theOnly_unique (fun u v h1 h2 => Option.some.inj (((Uuid.simpleS_iff _ u).2 h1).symm.trans ((Uuid.simpleS_iff _ v).2 h2))) h h'
  | uuidParseHyphenated => exact theOnly_unique (fun u v h1 h2 => Option.some.inj (((Uuid.hyphenatedS_iff _ u).2 h1).symm.trans ((Uuid.hyphenatedS_iff _ v).2 h2))) h h'
  | swap | swapInplace =>
    obtain ⟨s, rfl, h1⟩ := h
    obtain ⟨s', rfl, h1'⟩ := h'
    rw [h1.unique h1']

/-- The call is a byte swap. -/
def isSwap {α : Type} : Call α → Bool
  | .swap .. => true
  | _ => false

theorem isSwap_function {α : Type} (c : Call α) : isSwap (function c) = isSwap c := by cases c <;> rfl

theorem shortSwap_iff {α : Type} (c : Call α) : ShortSwap c ↔ isSwap c = true ∧ c.exclusive.2 < (input c).2 := by
  cases c <;> first | exact ⟨False.elim, fun h => nomatch h.1⟩ | skip
  rename_i t i src dst
  have ht : 0 < t.size := by cases t <;> decide
  exact ⟨fun h => ⟨rfl, Nat.mul_lt_mul_of_pos_left h ht⟩, fun h => Nat.lt_of_mul_lt_mul_left h.2⟩

theorem means_swap {α : Type} {c : Call α} (h : isSwap c = true) {xs : List Byte} {d : Nat} {res : Option (List Byte)} (hm : CallMeans xs d res c) : ∃ ys, res = some ys ∧ ys.length = xs.length := by
  cases c <;> first | (exact absurd (show false = true from h) nofun) | skip
  obtain ⟨ys, h1, h2⟩ := hm
  exact ⟨ys, h1, h2.1⟩

theorem Spec.HeapMeans.unique {α : Type} {c : HeapCall α} {xs : List Byte} {r r' : Option (List Byte)} (h : HeapMeans xs r c) (h' : HeapMeans xs r' c) : r = r' := by
  cases c with
  | base64Encode | base64EncodeAppend | base64Decode | base64DecodeAppend =>
    obtain ⟨url, pad, hv, h⟩ := h
    obtain ⟨url', pad', hv', h'⟩ := h'
    obtain ⟨rfl, rfl⟩ := Base64.variant_unique hv hv'
    first | exact h.trans h'.symm | exact inverse_unique hv.injective h h'
  | base32Encode | base32EncodeAppend | base32Decode | base32DecodeAppend =>
    obtain ⟨url, pad, hv, h⟩ := h
    obtain ⟨url', pad', hv', h'⟩ := h'
    obtain ⟨rfl, rfl⟩ := Base32.variant_unique hv hv'
    first | exact h.trans h'.symm | exact inverse_unique hv.injective h h'
  | forgiving | hexEncode | hexEncodeAppend => exact Eq.trans h (Eq.symm h')
  | hexDecode | hexDecodeAppend => exact fromHex_unique h h'

end Simd
