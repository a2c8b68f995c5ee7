import Verif.Lemmas.Api
import Verif.Lemmas.Base64Api
import Verif.Lemmas.Base32Check
/-
base32-simd: lengths, padding, and the public functions as instances of the shared shape.
-/
namespace Simd
namespace Base32
open Vs Spec
open Base64 (usizeMax_ge)

/-! ### Alphabets -/

/-- Whether a variant uses the extended-hex alphabet. -/
def isHex : Kind → Bool
  | .base32 => false
  | .base32hex => true

theorem chr_spec (kind) : ∀ v, v < 32 → chr kind v = base32Char (isHex kind) v := by
  have : ∀ v : Fin 32, chr kind v.val = base32Char (isHex kind) v.val := by cases kind <;> decide +kernel
  exact fun v hv => this ⟨v, hv⟩

theorem inverse (kind) : Inverse (chr kind) (val kind) where
  lt := alsw_lt kind
  left := by cases kind <;> decide +kernel
  right := by
    have : ∀ v : Fin 32, (val kind (chr kind v.val)).toNat = v.val := by cases kind <;> decide +kernel
    exact fun v hv => this ⟨v, hv⟩

theorem val_pad (kind) : val kind 0x3d#8 = 255#8 := by cases kind <;> decide +kernel

theorem chr_ne_pad (kind) {v} (h : v < 32) : chr kind v ≠ 0x3d#8 := by
  intro e
  apply (inverse kind).ne h
  rw [e, val_pad]

theorem encG_congr {ch ch' : Nat → Byte} (h : ∀ v, v < 32 → ch v = ch' v) (f) : encG ch f = encG ch' f := by
  have h0 := (f 0).isLt; have h1 := (f 1).isLt; have h2 := (f 2).isLt; have h3 := (f 3).isLt; have h4 := (f 4).isLt
  unfold encG
  rw [h _ (by omega), h _ (by omega), h _ (by omega), h _ (by omega), h _ (by omega), h _ (by omega), h _ (by omega), h _ (by omega)]

theorem enc32_congr {ch ch' : Nat → Byte} (h : ∀ v, v < 32 → ch v = ch' v) (pad) : ∀ xs, enc32 ch pad xs = enc32 ch' pad xs
  | a :: b :: c :: d :: e :: r => by rw [enc32, enc32, encG_congr h, enc32_congr h pad r]
  | [a, b, c, d] => by simp only [enc32, encT]; rw [encG_congr h]
  | [a, b, c] => by simp only [enc32, encT]; rw [encG_congr h]
  | [a, b] => by simp only [enc32, encT]; rw [encG_congr h]
  | [a] => by simp only [enc32, encT]; rw [encG_congr h]
  | [] => rfl

theorem encG_mem {ch : Nat → Byte} {f c} (h : c ∈ encG ch f) : ∃ v, v < 32 ∧ c = ch v := by
  have h0 := (f 0).isLt; have h1 := (f 1).isLt; have h2 := (f 2).isLt; have h3 := (f 3).isLt; have h4 := (f 4).isLt
  simp only [encG, List.mem_cons, List.not_mem_nil, or_false] at h
  rcases h with h | h | h | h | h | h | h | h <;> exact ⟨_, by omega, h⟩

theorem encT_mem {ch : Nat → Byte} {pad n xs c} (h : c ∈ encT ch pad n xs) : (∃ v, v < 32 ∧ c = ch v) ∨ (pad = true ∧ c = 0x3d#8) := by
  unfold encT at h
  rcases List.mem_append.1 h with h | h
  · exact .inl (encG_mem (List.mem_of_mem_take h))
  · cases pad
    · simp at h
    · exact .inr ⟨rfl, by simpa using (List.mem_replicate.1 (by simpa using h)).2⟩

theorem enc32_mem {ch : Nat → Byte} {pad} : ∀ {xs : List Byte} {c}, c ∈ enc32 ch pad xs → (∃ v, v < 32 ∧ c = ch v) ∨ (pad = true ∧ c = 0x3d#8)
  | a :: b :: c :: d :: e :: r, x, h => by
    rw [enc32] at h
    rcases List.mem_append.1 h with h | h
    · exact .inl (encG_mem h)
    · exact enc32_mem h
  | [a, b, c, d], x, h => encT_mem h
  | [a, b, c], x, h => encT_mem h
  | [a, b], x, h => encT_mem h
  | [a], x, h => encT_mem h
  | [], x, h => by simp at h

/-- The text a variant produces, in terms of RFC 4648. -/
def text (config : Config) (xs : List Byte) : List Byte := base32 (isHex config.kind) config.padding xs

theorem text_eq (config : Config) (xs) : text config xs = enc32 (chr config.kind) config.padding xs := by
  rw [text, base32_eq]
  exact (enc32_congr (chr_spec config.kind) _ xs).symm

theorem text_length (config : Config) (xs) : (text config xs).length = encLen config.padding xs.length := by
  rw [text_eq, enc32_length]

/-! ### Lengths -/

theorem ENC_EXTRA_eq (k : Nat) (h : k < 5) : ENC_EXTRA.getD k 0 = tailLen k := by
  have : ∀ k : Fin 5, ENC_EXTRA.getD k.val 0 = tailLen k.val := by decide
  exact this ⟨k, h⟩

theorem encoded_length_unchecked_eq (P : Plat) (n : Nat) (pad : Bool) (h : encLen pad n ≤ P.usizeMax) :
    encoded_length_unchecked P n pad = some (encLen pad n) := by
  unfold encoded_length_unchecked
  unfold encLen at h ⊢
  rw [Plat.mulU, if_pos (by omega)]
  show (if n % 5 = 0 then _ else _) = _
  by_cases h0 : n % 5 = 0
  · rw [if_pos h0, if_pos h0]; rfl
  · rw [if_neg h0] at h ⊢
    rw [if_neg h0]
    cases pad
    · simp only [Bool.false_eq_true, if_false] at h ⊢
      rw [ENC_EXTRA_eq _ (by omega), Plat.addU, if_pos h]
    · simp only [if_true] at h ⊢
      rw [Plat.addU, if_pos h]

theorem tailLen_le (k) : tailLen k ≤ 7 := by unfold tailLen; repeat' split
                                             all_goals omega

theorem encLen_le (pad n) : encLen pad n ≤ n / 5 * 8 + 8 := by
  have := tailLen_le (n % 5)
  unfold encLen; split <;> [skip; split] <;> omega

/-- The encoded length of a slice that exists in memory does not overflow. -/
theorem encLen_fits (P : Plat) (pad n) (h : n ≤ P.usizeMax / 2) : encLen pad n ≤ P.usizeMax := by
  have := encLen_le pad n
  have := usizeMax_ge P
  omega

theorem encLen_pos (pad n) (h : 0 < n) : 0 < encLen pad n := by
  unfold encLen
  by_cases h0 : n % 5 = 0
  · omega
  · rw [if_neg h0]
    have : 0 < tailLen (n % 5) := by unfold tailLen; repeat' split
                                     all_goals omega
    split <;> omega

/-- Number of `=` among the last six characters. -/
def padCount (xs : List Byte) : Nat := (xs.drop (xs.length - 6)).countP (· == 0x3d#8)

theorem padCount_le (xs) : padCount xs ≤ 6 := by
  have := List.countP_le_length (p := (· == 0x3d#8)) (l := xs.drop (xs.length - 6))
  rw [List.length_drop] at this
  unfold padCount; omega

/-- Number of data characters. -/
def dataLen (pad : Bool) (xs : List Byte) : Option Nat :=
  if pad then (if xs.length % 8 = 0 then some (xs.length - padCount xs) else none) else some xs.length

instance (n : Nat) : Decidable (OkLen n) := by unfold OkLen; infer_instance

/-- `decoded_length` on texts. -/
def dlen (pad : Bool) (xs : List Byte) : Option (Nat × Nat) :=
  if xs = [] then some (0, 0)
  else (dataLen pad xs).bind fun n => if OkLen n then some (n, decLen n) else none

theorem data_length_wp {m : Mem} {p : Ptr} {xs : List Byte} (pad : Bool) (hx : HasBytes m p xs) (h : xs ≠ []) :
    wp (data_length ⟨p, xs.length⟩ pad) (fun n m' => m' = m ∧ dataLen pad xs = some n)
      (fun m' => m' = m ∧ dataLen pad xs = none) m := by
  have hpos : 0 < xs.length := List.length_pos_iff.2 h
  cases pad
  · exact ⟨rfl, rfl⟩
  · simp only [data_length, dataLen, if_true]
    by_cases h8 : xs.length % 8 = 0
    · rw [wp_bind, wp_ensure, if_pos (by simp [h8]), if_pos h8, wp_bind, wp_assert]
      refine ⟨by simp; omega, ?_⟩
      rw [wp_bind, wp_loadBytes_iff (hx.drop (xs.length - 6) (by omega)) (by simp; omega)]
      exact ⟨rfl, rfl⟩
    · rw [wp_bind, wp_ensure, if_neg (by simp [h8]), if_neg h8]
      exact ⟨rfl, rfl⟩

theorem DEC_EXTRA_eq (n : Nat) : (OkLen n → DEC_EXTRA.getD (n % 8) 0 ≠ 0xff ∧ n / 8 * 5 + DEC_EXTRA.getD (n % 8) 0 = decLen n) ∧
    (¬ OkLen n → DEC_EXTRA.getD (n % 8) 0 = 0xff) := by
  unfold OkLen decLen
  have h8 : n % 8 = 0 ∨ n % 8 = 1 ∨ n % 8 = 2 ∨ n % 8 = 3 ∨ n % 8 = 4 ∨ n % 8 = 5 ∨ n % 8 = 6 ∨ n % 8 = 7 := by omega
  rcases h8 with h | h | h | h | h | h | h | h <;> rw [h] <;> simp [DEC_EXTRA]

theorem decoded_length_run (pad : Bool) (m : Mem) (p : Ptr) (xs : List Byte) (hx : HasBytes m p xs) :
    (decoded_length ⟨p, xs.length⟩ pad).run m = match dlen pad xs with
      | some r => .ok r m
      | none => .err m := by
  refine (wp_run_match (o := dlen pad xs) ?_).trans (by cases dlen pad xs <;> rfl)
  unfold decoded_length dlen
  by_cases h : xs = []
  · subst h
    exact ⟨rfl, rfl⟩
  · have hpos : 0 < xs.length := List.length_pos_iff.2 h
    rw [if_neg h]
    simp only
    rw [if_neg (by omega), wp_bind]
    refine wp_mono (data_length_wp pad hx h) ?_ ?_
    · rintro n _ ⟨rfl, hd⟩
      rw [hd, Option.bind_some, wp_bind, wp_ensure]
      by_cases hok : OkLen n
      · obtain ⟨h1, h2⟩ := (DEC_EXTRA_eq n).1 hok
        rw [if_pos (by simpa using h1), if_pos hok]
        exact ⟨rfl, by rw [h2]⟩
      · rw [(DEC_EXTRA_eq n).2 hok, if_neg (by simp), if_neg hok]
        exact ⟨rfl, rfl⟩
    · rintro _ ⟨rfl, hd⟩
      rw [hd]; exact ⟨rfl, rfl⟩

theorem dataLen_bounds {pad xs n} (h : dataLen pad xs = some n) : n ≤ xs.length ∧ (xs ≠ [] → n ≠ 0) := by
  have hc := padCount_le xs
  have hl : xs ≠ [] → 0 < xs.length := List.length_pos_iff.2
  cases pad <;> simp only [dataLen, Bool.false_eq_true, if_false, if_true] at h
  · cases h; exact ⟨Nat.le_refl _, fun h => by have := hl h; omega⟩
  · split at h
    · cases h; exact ⟨by omega, fun h => by have := hl h; omega⟩
    · cases h

theorem dlen_some {pad xs n k} (h : dlen pad xs = some (n, k)) :
    OkLen n ∧ k = decLen n ∧ n ≤ xs.length ∧ (xs ≠ [] → n ≠ 0) ∧ (xs ≠ [] → dataLen pad xs = some n) := by
  unfold dlen at h
  split at h
  · rename_i h0
    cases h; subst h0; exact ⟨by simp [OkLen], rfl, by simp, by simp, fun h => (h rfl).elim⟩
  · cases hd : dataLen pad xs with
    | none => rw [hd] at h; cases h
    | some n' =>
      rw [hd, Option.bind_some] at h
      split at h
      · rename_i h1
        cases h
        exact ⟨h1, rfl, (dataLen_bounds hd).1, (dataLen_bounds hd).2, fun _ => rfl⟩
      · cases h

theorem decLen_le (n) : decLen n ≤ n := by
  unfold decLen; repeat' split
  all_goals omega
theorem decLen_pos {n} (h : n ≠ 0) (h1 : OkLen n) : 0 < decLen n := by
  unfold decLen OkLen at *; repeat' split
  all_goals omega

/-! ### The public functions -/

/-- The implementations `encode` and `decode` can be dispatched to. -/
def Impl (i : Option Isa) : Prop := ∀ s, i = some s → Good s

/-- The decoder of a variant; `i` decodes and `j` checks. -/
def decApi (w : Bool) {i j : Option Isa} (hi : Impl i) (hj : j ≠ some .sse2) (config : Config) : DecApi where
  dlen := dlen config.padding
  D := fun src => decoded_length src config.padding
  body := fun src dst n => decode_auto w i src n dst config.kind
  chk := fun src n => check_auto j src n config.kind
  spec := dec32 (val config.kind)
  hD := decoded_length_run config.padding
  hle := fun xs n k h => by
    obtain ⟨h1, rfl, h2, h3, -⟩ := dlen_some h
    exact ⟨Nat.le_trans (decLen_le n) h2, h2, fun hx => decLen_pos (h3 hx) h1⟩
  hnil := rfl
  hspec := rfl
  hbody := fun m p q xs n k h hx hw hd => by
    obtain ⟨h1, rfl, h2, -, -⟩ := dlen_some h
    exact decode_auto_spec w hi (hx.take n) (by simp; omega) h1 hw (hd.mono h2)
  hchk := fun m p xs n k h hx => by
    obtain ⟨h1, -, h2, -, -⟩ := dlen_some h
    exact check_auto_spec hj (hx.take n) (by simp; omega) h1

/-- The encoder of a variant. -/
def encApi (w : Bool) {i : Option Isa} (hi : Impl i) (config : Config) : EncApi where
  elen := encLen config.padding
  L := fun P n => encoded_length_unchecked P n config.padding
  body := fun src len dst => encode_auto w i src len dst config.kind config.padding
  enc := text config
  hL := fun P n h => encoded_length_unchecked_eq P n config.padding h
  hlen := text_length config
  hnil := by rw [text_eq]; rfl
  hpos := encLen_pos config.padding
  hbody := fun m p q xs hx hw hd => by
    have := encode_auto_spec w (kind := config.kind) hi hx rfl hw hd
    unfold Does Post Fail encS at this
    unfold Does Post Fail
    simpa only [text_eq] using this

/-- The decoder of a variant as a function on texts. -/
def full (config : Config) (xs : List Byte) : Option (List Byte) :=
  (dlen config.padding xs).bind fun r => dec32 (val config.kind) (xs.take r.1)

theorem full_eq (w : Bool) {i j : Option Isa} (hi : Impl i) (hj : j ≠ some .sse2) (config) (xs) : (decApi w hi hj config).full xs = full config xs := rfl

/-! ### Strictness -/

theorem enc32_pad (ch) (ys : List Byte) : enc32 ch true ys = enc32 ch false ys ++ List.replicate ((8 - (enc32 ch false ys).length % 8) % 8) 0x3d#8 :=
  (padTo_eq ch ys).symm

theorem enc32_ok (ch) (ys : List Byte) : OkLen (enc32 ch false ys).length := by
  rw [enc32_length]; unfold encLen OkLen tailLen; simp only [Bool.false_eq_true, if_false]
  repeat' split
  all_goals omega

theorem countP_none {xs : List Byte} (h : ∀ c ∈ xs, c ≠ 0x3d#8) : xs.countP (· == 0x3d#8) = 0 := by
  rw [List.countP_eq_zero]
  intro c hc
  simpa using h c hc

theorem padCount_replicate {xs : List Byte} (r : Nat) (hr : r ≤ 6) (h : ∀ c ∈ xs, c ≠ 0x3d#8) :
    padCount (xs ++ List.replicate r 0x3d#8) = r := by
  unfold padCount
  rw [List.length_append, List.length_replicate, List.drop_append_of_le_length (by omega), List.countP_append,
    countP_none fun c hc => h c (List.mem_of_mem_drop hc), List.countP_replicate]
  simp

theorem drop_padCount {xs : List Byte} (h6 : 6 ≤ xs.length) (h : ∀ c ∈ xs.take (xs.length - padCount xs), c ≠ 0x3d#8) :
    xs.drop (xs.length - padCount xs) = List.replicate (padCount xs) 0x3d#8 := by
  have hc := padCount_le xs
  have hp : xs.drop (xs.length - 6) = (xs.take (xs.length - padCount xs)).drop (xs.length - 6) ++ xs.drop (xs.length - padCount xs) := by
    conv => lhs; rw [← List.take_append_drop (xs.length - padCount xs) xs]
    rw [List.drop_append_of_le_length (by simp; omega), List.take_append_drop]
  have hcnt : padCount xs = (xs.drop (xs.length - padCount xs)).countP (· == 0x3d#8) := by
    conv => lhs; rw [padCount, hp, List.countP_append, countP_none fun c hc => h c (List.mem_of_mem_drop hc), Nat.zero_add]
  have hlen : (xs.drop (xs.length - padCount xs)).length = padCount xs := by rw [List.length_drop]; omega
  rw [List.eq_replicate_iff]
  refine ⟨hlen, ?_⟩
  have := List.countP_eq_length.1 (hcnt.symm.trans hlen.symm)
  intro c hc
  simpa using this c hc

/-- A variant accepts exactly its own encodings. -/
theorem full_iff (config : Config) (xs ys : List Byte) : full config xs = some ys ↔ text config ys = xs := by
  obtain ⟨kind, pad⟩ := config
  rw [text_eq]
  by_cases h0 : xs = []
  · subst h0
    have : full ⟨kind, pad⟩ [] = some [] := rfl
    rw [this]
    constructor
    · intro h; cases h; rfl
    · intro h
      have := congrArg List.length h
      rw [enc32_length] at this
      have hy : ys = [] := by
        cases ys with
        | nil => rfl
        | cons a r =>
          have := encLen_pos pad (a :: r).length (by simp)
          simp only [List.length_nil] at *
          omega
      rw [hy]
  have hpos : 0 < xs.length := List.length_pos_iff.2 h0
  have hok := enc32_ok (chr kind) ys
  have hnp : ∀ c ∈ enc32 (chr kind) false ys, c ≠ 0x3d#8 := by
    intro c hc
    rcases enc32_mem hc with ⟨v, hv, rfl⟩ | ⟨h, -⟩
    · exact chr_ne_pad kind hv
    · cases h
  cases pad with
  | false =>
    unfold full dlen dataLen
    simp only [if_neg h0, Option.bind_some, Bool.false_eq_true, if_false]
    rw [← dec_iff_enc (inverse kind)]
    by_cases h1 : OkLen xs.length
    · rw [if_pos h1, Option.bind_some, List.take_length]
    · rw [if_neg h1, Option.bind_none]
      constructor
      · intro h; cases h
      · intro h
        have := (dec_iff_enc (inverse kind)).1 h
        rw [this] at hok; exact (h1 hok).elim
  | true =>
    unfold full dlen dataLen
    simp only [if_neg h0, if_true]
    by_cases h8 : xs.length % 8 = 0
    · rw [if_pos h8, Option.bind_some, enc32_pad]
      have hc := padCount_le xs
      constructor
      · intro h
        split at h
        · rename_i hk
          rw [Option.bind_some, dec_iff_enc (inverse kind)] at h
          rw [h] at hnp
          have hd := drop_padCount (by omega) hnp
          rw [h, List.length_take, show min (xs.length - padCount xs) xs.length = xs.length - padCount xs by omega,
            show (8 - (xs.length - padCount xs) % 8) % 8 = padCount xs by omega, ← hd, List.take_append_drop]
        · cases h
      · intro h
        have hl := congrArg List.length h
        rw [List.length_append, List.length_replicate] at hl
        have hp := padCount_replicate (xs := enc32 (chr kind) false ys) ((8 - (enc32 (chr kind) false ys).length % 8) % 8)
          (by unfold OkLen at hok; omega) hnp
        rw [h] at hp
        have hn : xs.length - padCount xs = (enc32 (chr kind) false ys).length := by rw [hp]; omega
        rw [hn, if_pos hok, Option.bind_some, dec_iff_enc (inverse kind)]
        conv => rhs; rw [← h]
        rw [List.take_left']
        rfl
    · rw [if_neg h8, Option.bind_none, Option.bind_none]
      constructor
      · intro h; cases h
      · intro h
        have := congrArg List.length h
        rw [enc32_length] at this
        unfold encLen at this
        simp only [if_true] at this
        split at this <;> omega

end Base32
end Simd
