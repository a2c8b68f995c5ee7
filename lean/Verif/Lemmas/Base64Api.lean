import Verif.Lemmas.Api
import Verif.Lemmas.Base64Encode
import Verif.Lemmas.Base64Check
/-
base64-simd: lengths, padding, and the public functions as instances of the shared shape.
-/
namespace Simd
namespace Base64
open Vs Spec

/-! ### Alphabets -/

/-- Whether a variant uses the URL-safe alphabet. -/
def isUrl : Kind → Bool
  | .standard => false
  | .urlSafe => true

theorem chr_spec (kind) : ∀ v, v < 64 → chr kind v = base64Char (isUrl kind) v := by
  have : ∀ v : Fin 64, chr kind v.val = base64Char (isUrl kind) v.val := by cases kind <;> decide +kernel
  exact fun v hv => this ⟨v, hv⟩

theorem inverse (kind) : Inverse (chr kind) (val kind) where
  lt := alsw_lt kind
  left := by cases kind <;> decide +kernel
  right := by
    have : ∀ v : Fin 64, (val kind (chr kind v.val)).toNat = v.val := by cases kind <;> decide +kernel
    exact fun v hv => this ⟨v, hv⟩

theorem val_pad (kind) : val kind 0x3d#8 = 255#8 := by cases kind <;> decide +kernel

theorem chr_ne_pad (kind) {v} (h : v < 64) : chr kind v ≠ 0x3d#8 := by
  intro e
  apply (inverse kind).ne h
  rw [e, val_pad]

theorem enc64_congr {ch ch' : Nat → Byte} (h : ∀ v, v < 64 → ch v = ch' v) (pad) : ∀ xs, enc64 ch pad xs = enc64 ch' pad xs
  | a :: b :: c :: r => by
    have ha := a.isLt; have hb := b.isLt; have hc := c.isLt
    simp only [enc64, encG, List.getD_cons_zero, List.getD_cons_succ]
    rw [h _ (by omega), h _ (by omega), h _ (by omega), h _ (by omega), enc64_congr h pad r]
  | [a, b] => by
    have ha := a.isLt; have hb := b.isLt
    simp only [enc64, encT2]
    rw [h _ (by omega), h _ (by omega), h _ (by omega)]
  | [a] => by
    have ha := a.isLt
    simp only [enc64, encT1]
    rw [h _ (by omega), h _ (by omega)]
  | [] => rfl

theorem enc64_mem {ch : Nat → Byte} {pad} : ∀ {xs : List Byte} {c}, c ∈ enc64 ch pad xs → (∃ v, v < 64 ∧ c = ch v) ∨ (pad = true ∧ c = 0x3d#8)
  | a :: b :: c :: r, x, h => by
    have ha := a.isLt; have hb := b.isLt; have hc := c.isLt
    simp only [enc64, encG, List.getD_cons_zero, List.getD_cons_succ, List.cons_append, List.nil_append, List.mem_cons] at h
    rcases h with h | h | h | h | h
    · exact .inl ⟨_, by omega, h⟩
    · exact .inl ⟨_, by omega, h⟩
    · exact .inl ⟨_, by omega, h⟩
    · exact .inl ⟨_, by omega, h⟩
    · exact enc64_mem h
  | [a, b], x, h => by
    have ha := a.isLt; have hb := b.isLt
    cases pad
    · simp only [enc64, encT2, Bool.false_eq_true, if_false, List.append_nil, List.mem_cons, List.not_mem_nil, or_false] at h
      rcases h with h | h | h
      · exact .inl ⟨_, by omega, h⟩
      · exact .inl ⟨_, by omega, h⟩
      · exact .inl ⟨_, by omega, h⟩
    · simp only [enc64, encT2, if_true, List.cons_append, List.nil_append, List.mem_cons, List.not_mem_nil, or_false] at h
      rcases h with h | h | h | h
      · exact .inl ⟨_, by omega, h⟩
      · exact .inl ⟨_, by omega, h⟩
      · exact .inl ⟨_, by omega, h⟩
      · exact .inr ⟨rfl, h⟩
  | [a], x, h => by
    have ha := a.isLt
    cases pad
    · simp only [enc64, encT1, Bool.false_eq_true, if_false, List.append_nil, List.mem_cons, List.not_mem_nil, or_false] at h
      rcases h with h | h
      · exact .inl ⟨_, by omega, h⟩
      · exact .inl ⟨_, by omega, h⟩
    · simp only [enc64, encT1, if_true, List.cons_append, List.nil_append, List.mem_cons, List.not_mem_nil, or_false] at h
      rcases h with h | h | h | h
      · exact .inl ⟨_, by omega, h⟩
      · exact .inl ⟨_, by omega, h⟩
      · exact .inr ⟨rfl, h⟩
      · exact .inr ⟨rfl, h⟩
  | [], x, h => by simp at h

/-- The text a variant produces, in terms of RFC 4648. -/
def text (config : Config) (xs : List Byte) : List Byte := base64 (isUrl config.kind) config.extra.padding xs

theorem text_eq (config : Config) (xs) : text config xs = enc64 (chr config.kind) config.extra.padding xs := by
  rw [text, base64_eq]
  exact (enc64_congr (chr_spec config.kind) _ xs).symm

theorem text_length (config : Config) (xs) : (text config xs).length = encLen config.extra.padding xs.length := by
  rw [text_eq, enc64_length]

/-! ### Lengths -/

theorem encoded_length_unchecked_eq (P : Plat) (n : Nat) (config : Config) (h : encLen config.extra.padding n ≤ P.usizeMax) :
    encoded_length_unchecked P n config = some (encLen config.extra.padding n) := by
  unfold encoded_length_unchecked
  unfold encLen at h ⊢
  generalize config.extra.padding = pad at *
  simp only at h ⊢
  by_cases h0 : n % 3 = 0
  · rw [if_pos h0] at h ⊢
    rw [if_pos h0, Plat.mulU, if_pos h]
  · rw [if_neg h0] at h ⊢
    rw [if_neg h0]
    cases pad
    · simp only [Bool.false_eq_true, if_false] at h ⊢
      rw [Plat.mulU, if_pos (by omega)]
      show (P.addU _ _).bind _ = _
      rw [Plat.addU, if_pos (by omega)]
      show P.addU _ _ = _
      rw [Plat.addU, if_pos (by omega)]
    · simp only [if_true] at h ⊢
      rw [Plat.mulU, if_pos (by omega)]
      show P.addU _ _ = _
      rw [Plat.addU, if_pos (by omega)]

theorem usizeMax_ge (P : Plat) : 65535 ≤ P.usizeMax := by
  have := Nat.pow_le_pow_right (n := 2) (by omega) P.hbits
  unfold Plat.usizeMax; omega

theorem encLen_le (pad n) : encLen pad n ≤ n / 3 * 4 + 4 := by unfold encLen; split <;> [skip; split] <;> omega

/-- The encoded length of a slice that exists in memory does not overflow. -/
theorem encLen_fits (P : Plat) (pad n) (h : n ≤ P.usizeMax / 2) : encLen pad n ≤ P.usizeMax := by
  have := encLen_le pad n
  have := usizeMax_ge P
  omega

/-- Trailing `=` seen by `count_pad`. -/
def padCount (xs : List Byte) : Nat :=
  if xs.getD (xs.length - 1) 0 = 0x3d#8 then (if xs.getD (xs.length - 2) 0 = 0x3d#8 then 2 else 1) else 0

theorem padCount_le (xs) : padCount xs ≤ 2 := by unfold padCount; split <;> [split; skip] <;> omega

/-- Number of data characters. -/
def dataLen (extra : Extra) (xs : List Byte) : Option Nat :=
  match extra with
  | .pad => if xs.length % 4 = 0 then some (xs.length - padCount xs) else none
  | .noPad => some xs.length
  | .forgiving => if xs.length % 4 = 0 then some (xs.length - padCount xs) else some xs.length

/-- `decoded_length` on texts. -/
def dlen (extra : Extra) (xs : List Byte) : Option (Nat × Nat) :=
  if xs = [] then some (0, 0)
  else (dataLen extra xs).bind fun n => if n % 4 = 1 then none else some (n, decLen n)

theorem count_pad_wp {m : Mem} {p : Ptr} {xs : List Byte} {Q : Nat → Mem → Prop} {E} (hx : HasBytes m p xs) (h : 2 ≤ xs.length)
    (hq : Q (padCount xs) m) : wp (count_pad ⟨p, xs.length⟩) Q E m := by
  unfold count_pad
  rw [wp_bind, wp_assert]
  refine ⟨by simpa using h, ?_⟩
  rw [wp_bind, wp_rd_iff hx (by show xs.length - 1 < _; omega), wp_bind, wp_rd_iff hx (by show xs.length - 2 < _; omega), wp_pure]
  unfold padCount at hq
  rwa [← List.getElem_eq_getD (h := by omega), ← List.getElem_eq_getD (h := by omega)] at hq

theorem data_length_wp {m : Mem} {p : Ptr} {xs : List Byte} (config : Config) (hx : HasBytes m p xs) (h : xs ≠ []) :
    wp (data_length ⟨p, xs.length⟩ config) (fun n m' => m' = m ∧ dataLen config.extra xs = some n)
      (fun m' => m' = m ∧ dataLen config.extra xs = none) m := by
  have hpos : 0 < xs.length := List.length_pos_iff.2 h
  obtain ⟨kind, extra⟩ := config
  cases extra
  · simp only [data_length, dataLen]
    by_cases h4 : xs.length % 4 = 0
    · rw [wp_bind, wp_ensure, if_pos (by simp [h4])]
      rw [if_pos h4, wp_bind]
      exact count_pad_wp hx (by omega) ⟨rfl, rfl⟩
    · rw [wp_bind, wp_ensure, if_neg (by simp [h4]), if_neg h4]
      exact ⟨rfl, rfl⟩
  · exact ⟨rfl, rfl⟩
  · simp only [data_length, dataLen]
    by_cases h4 : xs.length % 4 = 0
    · rw [if_pos h4, if_pos h4, wp_bind]
      exact count_pad_wp hx (by omega) ⟨rfl, rfl⟩
    · rw [if_neg h4, if_neg h4]
      exact ⟨rfl, rfl⟩

theorem decoded_length_run (config : Config) (m : Mem) (p : Ptr) (xs : List Byte) (hx : HasBytes m p xs) :
    (decoded_length ⟨p, xs.length⟩ config).run m = match dlen config.extra xs with
      | some r => .ok r m
      | none => .err m := by
  refine (wp_run_match (o := dlen config.extra xs) ?_).trans (by cases dlen config.extra xs <;> rfl)
  unfold decoded_length dlen
  by_cases h : xs = []
  · subst h
    exact ⟨rfl, rfl⟩
  · have hpos : 0 < xs.length := List.length_pos_iff.2 h
    rw [if_neg h]
    simp only
    rw [if_neg (by omega), wp_bind]
    refine wp_mono (data_length_wp config hx h) ?_ ?_
    · rintro n _ ⟨rfl, hd⟩
      rw [hd, Option.bind_some]
      have h4 : n % 4 = 0 ∨ n % 4 = 1 ∨ n % 4 = 2 ∨ n % 4 = 3 := by omega
      rcases h4 with h4 | h4 | h4 | h4 <;> rw [h4]
      · exact ⟨rfl, by simp [decLen, h4]⟩
      · exact ⟨rfl, rfl⟩
      · exact ⟨rfl, by simp [decLen, h4]⟩
      · exact ⟨rfl, by simp [decLen, h4]⟩
    · rintro _ ⟨rfl, hd⟩
      rw [hd]; exact ⟨rfl, rfl⟩

theorem dataLen_bounds {extra xs n} (h : dataLen extra xs = some n) : n ≤ xs.length ∧ (xs ≠ [] → n ≠ 0) := by
  have hc := padCount_le xs
  have hl : xs ≠ [] → 0 < xs.length := List.length_pos_iff.2
  cases extra <;> simp only [dataLen] at h
  · split at h
    · cases h; exact ⟨by omega, fun h => by have := hl h; omega⟩
    · cases h
  · cases h; exact ⟨Nat.le_refl _, fun h => by have := hl h; omega⟩
  · split at h
    · cases h; exact ⟨by omega, fun h => by have := hl h; omega⟩
    · cases h; exact ⟨by omega, fun h => by have := hl h; omega⟩

theorem dlen_some {extra xs n k} (h : dlen extra xs = some (n, k)) :
    n % 4 ≠ 1 ∧ k = decLen n ∧ n ≤ xs.length ∧ (xs ≠ [] → n ≠ 0) ∧ (xs ≠ [] → dataLen extra xs = some n) := by
  unfold dlen at h
  split at h
  · rename_i h0
    cases h; subst h0; exact ⟨by omega, rfl, by simp, by simp, fun h => (h rfl).elim⟩
  · cases hd : dataLen extra xs with
    | none => rw [hd] at h; cases h
    | some n' =>
      rw [hd, Option.bind_some] at h
      split at h
      · cases h
      · rename_i h1
        cases h
        exact ⟨h1, rfl, (dataLen_bounds hd).1, (dataLen_bounds hd).2, fun _ => rfl⟩

theorem decLen_le (n) : decLen n ≤ n := by unfold decLen; split <;> [skip; split] <;> omega
theorem decLen_pos {n} (h : n ≠ 0) (h1 : n % 4 ≠ 1) : 0 < decLen n := by unfold decLen; split <;> [skip; split] <;> omega

/-! ### The public functions -/

/-- The decoder of a variant. -/
def decApi {i : Option Isa} (hi : i ≠ some .sse2) (config : Config) : DecApi where
  dlen := dlen config.extra
  D := fun src => decoded_length src config
  body := fun src dst n => decode_auto i src dst n config
  chk := fun src n => check_auto i src n config
  spec := dec64 (val config.kind) config.extra.isForgiving
  hD := decoded_length_run config
  hle := fun xs n k h => by
    obtain ⟨h1, rfl, h2, h3, -⟩ := dlen_some h
    exact ⟨Nat.le_trans (decLen_le n) h2, h2, fun hx => decLen_pos (h3 hx) h1⟩
  hnil := rfl
  hspec := rfl
  hbody := fun m p q xs n k h hx hw hd => by
    obtain ⟨h1, rfl, h2, -, -⟩ := dlen_some h
    exact decode_auto_spec hi (hx.take n) (by simp; omega) h1 hw (hd.mono h2)
  hchk := fun m p xs n k h hx => by
    obtain ⟨h1, -, h2, -, -⟩ := dlen_some h
    exact check_auto_spec hi (hx.take n) (by simp; omega) h1

/-- The encoder of a variant. -/
def encApi {i : Option Isa} (hi : i ≠ some .sse2) (config : Config) : EncApi where
  elen := encLen config.extra.padding
  L := fun P n => encoded_length_unchecked P n config
  body := fun src len dst => encode_auto i src len dst config
  enc := text config
  hL := fun P n h => encoded_length_unchecked_eq P n config h
  hlen := text_length config
  hnil := by rw [text_eq]; rfl
  hpos := fun n h => by unfold encLen; split <;> [skip; split] <;> omega
  hbody := fun m p q xs hx hw hd => by
    have := encode_auto_spec (config := config) hi hx rfl hw hd
    unfold Does Post Fail encS at this
    unfold Does Post Fail
    simpa only [text_eq] using this

/-- The decoder of a variant as a function on texts. -/
def full (config : Config) (xs : List Byte) : Option (List Byte) :=
  (dlen config.extra xs).bind fun r => dec64 (val config.kind) config.extra.isForgiving (xs.take r.1)

theorem full_eq {i : Option Isa} (hi : i ≠ some .sse2) (config) (xs) : (decApi hi config).full xs = full config xs := rfl

/-! ### Strictness -/

theorem enc64_pad (ch) (ys : List Byte) : enc64 ch true ys = enc64 ch false ys ++ List.replicate ((4 - (enc64 ch false ys).length % 4) % 4) 0x3d#8 :=
  (padTo_eq ch ys).symm

theorem enc64_mod (ch) (ys : List Byte) : (enc64 ch false ys).length % 4 ≠ 1 := by
  rw [enc64_length]; unfold encLen; simp only [Bool.false_eq_true, if_false]; split <;> omega

theorem getD_last_mem {xs : List Byte} (h : xs ≠ []) : xs.getD (xs.length - 1) 0 ∈ xs := by
  have hpos : 0 < xs.length := List.length_pos_iff.2 h
  rw [← List.getElem_eq_getD (h := by omega)]
  exact List.getElem_mem _

theorem getD_app_right {xs ys : List Byte} {j : Nat} (h : xs.length ≤ j) : (xs ++ ys).getD j 0 = ys.getD (j - xs.length) 0 := by
  simp only [List.getD_eq_getElem?_getD, List.getElem?_append_right h]
theorem getD_app_left {xs ys : List Byte} {j : Nat} (h : j < xs.length) : (xs ++ ys).getD j 0 = xs.getD j 0 := by
  simp only [List.getD_eq_getElem?_getD, List.getElem?_append_left h]

theorem padCount_replicate {xs : List Byte} (r : Nat) (hr : r ≤ 2) (h : ∀ c ∈ xs, c ≠ 0x3d#8) (h0 : xs ≠ []) :
    padCount (xs ++ List.replicate r 0x3d#8) = r := by
  have hl : 0 < xs.length := List.length_pos_iff.2 h0
  have hm := h _ (getD_last_mem h0)
  obtain rfl | rfl | rfl : r = 0 ∨ r = 1 ∨ r = 2 := by omega
  · simp only [padCount, List.replicate_zero, List.append_nil]
    rw [if_neg hm]
  · simp only [padCount, List.replicate_one, List.length_append, List.length_cons, List.length_nil]
    have e1 : (xs ++ [0x3d#8]).getD (xs.length + (0 + 1) - 1) 0 = 0x3d#8 := by
      rw [getD_app_right (by omega)]; simp
    have e2 : (xs ++ [0x3d#8]).getD (xs.length + (0 + 1) - 2) 0 = xs.getD (xs.length - 1) 0 := by
      rw [getD_app_left (by omega)]; congr 1
    rw [if_pos e1, e2, if_neg hm]
  · simp only [padCount, List.replicate_succ, List.replicate_zero, List.length_append, List.length_cons, List.length_nil]
    have e1 : (xs ++ [0x3d#8, 0x3d#8]).getD (xs.length + (0 + 1 + 1) - 1) 0 = 0x3d#8 := by
      rw [getD_app_right (by omega), show xs.length + (0 + 1 + 1) - 1 - xs.length = 1 by omega]; rfl
    have e2 : (xs ++ [0x3d#8, 0x3d#8]).getD (xs.length + (0 + 1 + 1) - 2) 0 = 0x3d#8 := by
      rw [getD_app_right (by omega), show xs.length + (0 + 1 + 1) - 2 - xs.length = 0 by omega]; rfl
    rw [if_pos e1, if_pos e2]

theorem drop_padCount {xs : List Byte} (h : 2 ≤ xs.length) : xs.drop (xs.length - padCount xs) = List.replicate (padCount xs) 0x3d#8 := by
  apply List.ext_getElem?
  intro j
  unfold padCount
  rw [List.getElem?_drop]
  split
  · rename_i h1
    rw [← List.getElem_eq_getD (h := by omega)] at h1
    split
    · rename_i h2
      rw [← List.getElem_eq_getD (h := by omega)] at h2
      obtain rfl | rfl | hj : j = 0 ∨ j = 1 ∨ 2 ≤ j := by omega
      · rw [Nat.add_zero, List.getElem?_eq_getElem (by omega), h2]; rfl
      · rw [show xs.length - 2 + 1 = xs.length - 1 by omega, List.getElem?_eq_getElem (by omega), h1]; rfl
      · rw [List.getElem?_eq_none (by omega), List.getElem?_eq_none (by simp; omega)]
    · obtain rfl | hj : j = 0 ∨ 1 ≤ j := by omega
      · rw [Nat.add_zero, List.getElem?_eq_getElem (by omega), h1]; rfl
      · rw [List.getElem?_eq_none (by omega), List.getElem?_eq_none (by simp; omega)]
  · rw [List.getElem?_eq_none (by omega), List.getElem?_eq_none (by simp)]

/-- A strict variant accepts exactly its own encodings. -/
theorem full_iff (config : Config) (hf : config.extra ≠ .forgiving) (xs ys : List Byte) : full config xs = some ys ↔ text config ys = xs := by
  obtain ⟨kind, extra⟩ := config
  rw [text_eq]
  by_cases h0 : xs = []
  · subst h0
    have : full ⟨kind, extra⟩ [] = some [] := rfl
    rw [this]
    constructor
    · intro h; cases h; rfl
    · intro h
      have := congrArg List.length h
      rw [enc64_length] at this
      have hy : ys = [] := by
        cases ys with
        | nil => rfl
        | cons a r =>
          exfalso
          simp only [List.length_nil, List.length_cons, encLen] at this
          split at this <;> [skip; split at this] <;> omega
      rw [hy]
  have hpos : 0 < xs.length := List.length_pos_iff.2 h0
  cases extra with
  | forgiving => exact (hf rfl).elim
  | noPad =>
    unfold full dlen dataLen
    simp only [if_neg h0, Option.bind_some, Extra.isForgiving, Extra.padding]
    rw [← dec_iff_enc (inverse kind)]
    by_cases h1 : xs.length % 4 = 1
    · rw [if_pos h1, Option.bind_none]
      constructor
      · intro h; cases h
      · intro h
        have := (dec_iff_enc (inverse kind)).1 h
        have hm := enc64_mod (chr kind) ys
        rw [this] at hm; exact (hm h1).elim
    · rw [if_neg h1, Option.bind_some, List.take_length]
  | pad =>
    unfold full dlen dataLen
    simp only [if_neg h0, Extra.isForgiving, Extra.padding]
    have hm := enc64_mod (chr kind) ys
    by_cases h4 : xs.length % 4 = 0
    · rw [if_pos h4, Option.bind_some]
      have hc := padCount_le xs
      have hn1 : (xs.length - padCount xs) % 4 ≠ 1 := by omega
      rw [if_neg hn1, Option.bind_some, dec_iff_enc (inverse kind), enc64_pad]
      constructor
      · intro h
        rw [h, List.length_take, show min (xs.length - padCount xs) xs.length = xs.length - padCount xs by omega]
        have : (4 - (xs.length - padCount xs) % 4) % 4 = padCount xs := by omega
        rw [this, ← drop_padCount (by omega), List.take_append_drop]
      · intro h
        have hl := congrArg List.length h
        rw [List.length_append, List.length_replicate] at hl
        have hne : enc64 (chr kind) false ys ≠ [] := by
          intro e; rw [e] at hl; simp at hl; omega
        have hp := padCount_replicate (xs := enc64 (chr kind) false ys) ((4 - (enc64 (chr kind) false ys).length % 4) % 4) (by omega)
          (by
            intro c hc
            rcases enc64_mem hc with ⟨v, hv, rfl⟩ | ⟨h, -⟩
            · exact chr_ne_pad kind hv
            · cases h) hne
        rw [h] at hp
        rw [hp]
        rw [← hl]
        conv => rhs; rw [← h]
        rw [Nat.add_sub_cancel, List.take_left']
        rfl
    · rw [if_neg h4, Option.bind_none, Option.bind_none]
      constructor
      · intro h; cases h
      · intro h
        have := congrArg List.length h
        rw [enc64_length] at this
        unfold encLen at this
        simp only [if_true] at this
        split at this <;> omega

end Base64
end Simd
