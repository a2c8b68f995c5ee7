import Verif.Props.Allocs
import Verif.Props.Chunks
/-
C83: exactly when a safe call panics; in all other cases it returns, with a value or with an error.
-/
namespace Simd
open Dispatch

/-- The call returns. -/
def Spec.Returns {α : Type} (x : Prog α) (m : Mem) : Prop := (∃ a m', x.run m = .ok a m') ∨ ∃ m', x.run m = .err m'

theorem ret_ok {α : Type} {x : Prog α} {m m' : Mem} {a : α} (h : x.run m = .ok a m') : Spec.Returns x m := .inl ⟨a, m', h⟩
theorem ret_err {α : Type} {x : Prog α} {m m' : Mem} (h : x.run m = .err m') : Spec.Returns x m := .inr ⟨m', h⟩
theorem ret_ok' {α : Type} {x : Prog α} {m : Mem} {a : α} {Q : Mem → Prop} (h : ∃ m', x.run m = .ok a m' ∧ Q m') : Spec.Returns x m := ret_ok h.choose_spec.1
theorem ret_ok₂ {α β : Type} {x : Prog α} {m : Mem} {f : β → α} {Q : β → Mem → Prop} (h : ∃ a m', x.run m = .ok (f a) m' ∧ Q a m') : Spec.Returns x m :=
  ret_ok h.choose_spec.choose_spec.1
theorem ret_err' {α : Type} {x : Prog α} {m : Mem} {Q : Mem → Prop} (h : ∃ m', x.run m = .err m' ∧ Q m') : Spec.Returns x m := ret_err h.choose_spec.1

theorem Spec.Returns.wrap {α β : Type} {x : Prog α} {f : α → β} {m : Mem} (h : Spec.Returns x m) : Spec.Returns (do let s ← x; pure (f s) : Prog β) m := by
  unfold Spec.Returns
  rw [run_bind]
  rcases h with ⟨a, m', h⟩ | ⟨m', h⟩ <;> rw [h]
  · exact .inl ⟨_, _, rfl⟩
  · exact .inr ⟨_, rfl⟩

theorem panic_wrap {α β : Type} {x : Prog α} {f : α → β} {m : Mem} (h : x.run m = .panic) : (do let s ← x; pure (f s) : Prog β).run m = .panic := by
  rw [run_bind, h]

/-- The implementations a call uses are ones that the machine may execute (those of the byte swaps included), and the parameters are those of the published constants. -/
def Call.MayRun (M : Machine) {α : Type} (c : Call α) : Prop :=
  match c with
  | .swap t i _ _ | .swapInplace t i _ => M.Runs (match t with | .u16 => unicode_utf16_swap | .u32 | .u64 => unicode_utf32_swap) i
  | c => c.RunsOn M

/-- What safe Rust guarantees about the arguments of one call (as in C78, but the destination may be shorter than the source). -/
def Call.Borrowed (P : Plat) (m : Mem) {α : Type} (c : Call α) : Prop :=
  (∃ xs, xs.length = c.shared.2 ∧ Spec.Reads m c.shared.1 xs) ∧ Spec.Writable m c.exclusive.1 c.exclusive.2 ∧ c.shared.2 ≤ P.isizeMax ∧ c.exclusive.2 ≤ P.isizeMax ∧
  match c with
  | .base64Inplace .. | .forgivingInplace .. | .base32Inplace .. | .hexInplace .. | .swapInplace .. =>
    ∃ xs, xs.length = c.exclusive.2 ∧ Spec.Reads m c.exclusive.1 xs
  | .base64Check .. | .base32Check .. | .hexCheck .. | .isAscii .. | .isUtf32le .. => True
  | _ => Spec.NoOverlap c.shared.1 c.shared.2 c.exclusive.1 c.exclusive.2

/-- When a call of a slice function panics: a byte swap to a shorter slice, as documented; a byte swap with SSSE3 of 32 bytes or more (finding A). Nothing else. -/
def Call.Panics {α : Type} : Call α → Prop
  | .swap t i src dst => dst.len < src.len ∨ i = some .ssse3 ∧ 32 ≤ t.size * src.len
  | .swapInplace t i data => i = some .ssse3 ∧ 32 ≤ t.size * data.len
  | _ => False

theorem lanes_le (t : Unicode.Elem) (n : Nat) : t.lanes ≤ n ↔ 32 ≤ t.size * n := by
  cases t
  · show 16 ≤ n ↔ 32 ≤ 2 * n; omega
  · show 8 ≤ n ↔ 32 ≤ 4 * n; omega
  · show 4 ≤ n ↔ 32 ≤ 8 * n; omega

theorem swap_not_sse2 {M : Machine} {t : Unicode.Elem} {i : Option Isa} (h : M.Runs (match t with | .u16 => unicode_utf16_swap | .u32 | .u64 => unicode_utf32_swap) i) :
    i ≠ some .sse2 := by
  cases t <;> exact Runs.ne_sse2 h (by decide)

/-- C83, the functions on slices. -/
theorem C83_slices (M : Machine) {α : Type} (c : Call α) (m : Mem) (hr : c.MayRun M) (hb : c.Borrowed M.P m) :
    (c.Panics → (c.prog M.P).run m = .panic) ∧ (¬ c.Panics → Spec.Returns (c.prog M.P) m) := by
  have hu := isizeMax_le M.P
  obtain ⟨⟨xs, hl, hx⟩, hw, hP, hP', hb⟩ := hb
  have only : ∀ {p : Prop} {q : Prop}, ¬ p → q → (p → (c.prog M.P).run m = .panic) ∧ (¬ p → q) := fun h1 h2 => ⟨fun h => absurd h h1, fun _ => h2⟩
  cases c with
  | base64Encode i config src dst =>
    refine only id ?_
    obtain ⟨hi, url, pad, hv⟩ := hr
    have hi := Runs.ne_sse2 hi (by decide)
    obtain ⟨p, _⟩ := src; obtain ⟨q, d⟩ := dst
    dsimp only [Call.shared, Call.exclusive] at *; subst hl
    by_cases h : (Spec.base64 url pad xs).length ≤ d
    · exact ret_ok' (Base64.C59_encode M.P hi hv m p q xs d hx hw hb hP h)
    · exact ret_err (Base64.C59_encode_short M.P hi hv m p q xs d hP (by omega))
  | base64Decode i config src dst =>
    refine only id ?_
    obtain ⟨hi, url, pad, hv⟩ := hr
    have hi := Runs.ne_sse2 hi (by decide)
    obtain ⟨p, _⟩ := src; obtain ⟨q, d⟩ := dst
    dsimp only [Call.shared, Call.exclusive] at *; subst hl
    by_cases h : ∃ ys, Spec.base64 url pad ys = xs
    · obtain ⟨ys, rfl⟩ := h
      have := Base64.C59_decode hi hv m p q ys d hx hw hb
      by_cases h : ys.length ≤ d
      · exact ret_ok' (this.1 h)
      · exact ret_err (this.2 (by omega))
    · exact ret_err' (Base64.C59_decode_err hi hv m p q xs d hx hw hb h)
  | base64Inplace i config data =>
    refine only id ?_
    obtain ⟨hi, url, pad, hv⟩ := hr
    have hi := Runs.ne_sse2 hi (by decide)
    obtain ⟨p, _⟩ := data; obtain ⟨xs, hl, hx⟩ := hb
    dsimp only [Call.shared, Call.exclusive] at *; subst hl
    have := Base64.C59_inplace hi hv m p xs hx
    by_cases h : ∃ ys, Spec.base64 url pad ys = xs
    · obtain ⟨ys, h⟩ := h; exact ret_ok' (this.1 ys h)
    · exact ret_err' (this.2 h)
  | base64Check i config data =>
    refine only id ?_
    obtain ⟨hi, url, pad, hv⟩ := hr
    have hi := Runs.ne_sse2 hi (by decide)
    obtain ⟨p, _⟩ := data
    dsimp only [Call.shared, Call.exclusive] at *; subst hl
    have := Base64.C59_check hi hv m p xs hx
    by_cases h : ∃ ys, Spec.base64 url pad ys = xs
    · exact ret_ok (this.1 h)
    · exact ret_err (this.2 h)
  | forgiving fi di src dst =>
    refine only id ?_
    have hi := Runs.ne_sse2 hr.2 (by decide)
    obtain ⟨p, _⟩ := src; obtain ⟨q, d⟩ := dst
    dsimp only [Call.shared, Call.exclusive] at *; subst hl
    by_cases hd : xs.length ≤ d
    · have := Base64.C59_forgiving fi hi m p q xs d hx hw hd hb
      cases h : Spec.forgivingDecode xs with
      | some ys => exact ret_ok' (this.1 ys h)
      | none => exact ret_err' (this.2 h)
    · refine ret_err (m' := m) ?_
      show (Base64.forgiving_decode fi di ⟨p, xs.length⟩ ⟨q, d⟩).run m = _
      unfold Base64.forgiving_decode
      exact run_ensure_false (by simp; omega)
  | forgivingInplace fi di data =>
    refine only id ?_
    have hi := Runs.ne_sse2 hr.2 (by decide)
    obtain ⟨p, _⟩ := data; obtain ⟨xs, hl, hx⟩ := hb
    dsimp only [Call.shared, Call.exclusive] at *; subst hl
    have := Base64.C59_forgiving_inplace fi hi m p xs hx
    cases h : Spec.forgivingDecode xs with
    | some ys => exact ret_ok' (this.1 ys h)
    | none => exact ret_err' (this.2 h)
  | base32Encode w i config src dst =>
    refine only id ?_
    obtain ⟨rfl, hi, hex, pad, hv⟩ := hr
    have hi := Base32.impl_of_runs hi (by decide) (by decide)
    obtain ⟨p, _⟩ := src; obtain ⟨q, d⟩ := dst
    dsimp only [Call.shared, Call.exclusive] at *; subst hl
    by_cases h : (Spec.base32 hex pad xs).length ≤ d
    · exact ret_ok' (Base32.C59_encode M.P M.wasm hi hv m p q xs d hx hw hb hP h)
    · exact ret_err (Base32.C59_encode_short M.P M.wasm hi hv m p q xs d hP (by omega))
  | base32Decode w i config src dst =>
    refine only id ?_
    obtain ⟨rfl, hi, hex, pad, hv⟩ := hr
    have hi := Base32.impl_of_runs hi (by decide) (by decide)
    obtain ⟨p, _⟩ := src; obtain ⟨q, d⟩ := dst
    dsimp only [Call.shared, Call.exclusive] at *; subst hl
    by_cases h : ∃ ys, Spec.base32 hex pad ys = xs
    · obtain ⟨ys, rfl⟩ := h
      have := Base32.C59_decode M.wasm hi hv m p q ys d hx hw hb
      by_cases h : ys.length ≤ d
      · exact ret_ok' (this.1 h)
      · exact ret_err (this.2 (by omega))
    · exact ret_err' (Base32.C59_decode_err M.wasm hi hv m p q xs d hx hw hb h)
  | base32Inplace w i config data =>
    refine only id ?_
    obtain ⟨rfl, hi, hex, pad, hv⟩ := hr
    have hi := Base32.impl_of_runs hi (by decide) (by decide)
    obtain ⟨p, _⟩ := data; obtain ⟨xs, hl, hx⟩ := hb
    dsimp only [Call.shared, Call.exclusive] at *; subst hl
    have := Base32.C59_inplace M.wasm hi hv m p xs hx
    by_cases h : ∃ ys, Spec.base32 hex pad ys = xs
    · obtain ⟨ys, h⟩ := h; exact ret_ok' (this.1 ys h)
    · exact ret_err' (this.2 h)
  | base32Check i config data =>
    refine only id ?_
    obtain ⟨hi, hex, pad, hv⟩ := hr
    have hi := Runs.ne_sse2 hi (by decide)
    obtain ⟨p, _⟩ := data
    dsimp only [Call.shared, Call.exclusive] at *; subst hl
    have := Base32.C59_check hi hv m p xs hx
    by_cases h : ∃ ys, Spec.base32 hex pad ys = xs
    · exact ret_ok (this.1 h)
    · exact ret_err (this.2 h)
  | hexEncode i case src dst =>
    refine only id ?_
    obtain ⟨p, _⟩ := src; obtain ⟨q, d⟩ := dst
    dsimp only [Call.shared, Call.exclusive] at *; subst hl
    have := Hex.C59_encode M.P i case m p q xs d hx hw (by omega) hb
    by_cases h : 2 * xs.length ≤ d
    · exact ret_ok' (this.1 h)
    · exact ret_err (this.2 (by omega))
  | hexDecode i src dst =>
    refine only id ?_
    obtain ⟨p, _⟩ := src; obtain ⟨q, d⟩ := dst
    dsimp only [Call.shared, Call.exclusive] at *; subst hl
    have := Hex.C59_decode i m p q xs d hx hw hb
    by_cases h : ∃ ys, Spec.IsHexOf xs ys
    · obtain ⟨ys, hy⟩ := h
      by_cases h : ys.length ≤ d
      · exact ret_ok' (this.1 ys hy h)
      · exact ret_err (this.2.1 ys hy (by omega))
    · exact ret_err' (this.2.2 h)
  | hexInplace i data =>
    refine only id ?_
    obtain ⟨p, _⟩ := data; obtain ⟨xs, hl, hx⟩ := hb
    dsimp only [Call.shared, Call.exclusive] at *; subst hl
    have := Hex.C59_inplace i m p xs hx
    by_cases h : ∃ ys, Spec.IsHexOf xs ys
    · obtain ⟨ys, h⟩ := h; exact ret_ok' (this.1 ys h)
    · exact ret_err' (this.2 h)
  | hexCheck i data =>
    refine only id ?_
    obtain ⟨p, _⟩ := data
    dsimp only [Call.shared, Call.exclusive] at *; subst hl
    have : (Hex.check i ⟨p, xs.length⟩).run m = _ := Hex.C58_check_raw i m p xs hx
    split at this
    · exact ret_ok this
    · exact ret_err this
  | uuidParse si hi src q =>
    refine only id ?_
    have hh : Uuid.HypImpl hi := ⟨Runs.ne_sse2 hr.2 (by decide), Runs.ne_ssse3 hr.2 (by decide)⟩
    obtain ⟨p, _⟩ := src
    dsimp only [Call.shared, Call.exclusive] at *; subst hl
    have := Uuid.C60_parse si hh m p q xs hx hw hb
    by_cases h : ∃ u, Spec.IsUuid xs u
    · obtain ⟨u, h⟩ := h; exact ret_ok' (this.1 u h)
    · exact ret_err' (this.2 h)
  | uuidParseSimple i src q =>
    refine only id ?_
    obtain ⟨p, _⟩ := src
    dsimp only [Call.shared, Call.exclusive] at *; subst hl
    have := Uuid.C60_parse_simple i m p q xs hx hw hb
    by_cases h : ∃ u, Spec.IsUuidSimple xs u
    · obtain ⟨u, h⟩ := h; exact ret_ok' (this.1 u h)
    · exact ret_err' (this.2 h)
  | uuidParseHyphenated i src q =>
    refine only id ?_
    have hh : Uuid.HypImpl i := ⟨Runs.ne_sse2 hr (by decide), Runs.ne_ssse3 hr (by decide)⟩
    obtain ⟨p, _⟩ := src
    dsimp only [Call.shared, Call.exclusive] at *; subst hl
    have := Uuid.C60_parse_hyphenated hh m p q xs hx hw hb
    by_cases h : ∃ u, Spec.IsUuidHyphenated xs u
    · obtain ⟨u, h⟩ := h; exact ret_ok' (this.1 u h)
    · exact ret_err' (this.2 h)
  | uuidFormatSimple i case p q =>
    exact only id (ret_ok' (Uuid.C60_format_simple i case m p q xs hl hx hw hb))
  | uuidFormatHyphenated i case p q =>
    have hh : Uuid.HypImpl i := ⟨Runs.ne_sse2 hr (by decide), Runs.ne_ssse3 hr (by decide)⟩
    exact only id (ret_ok' (Uuid.C60_format_hyphenated hh case m p q xs hl hx hw hb))
  | isAscii x64 i data =>
    refine only id ?_
    obtain ⟨p, _⟩ := data
    dsimp only [Call.shared, Call.exclusive] at *; subst hl
    exact ret_ok (Unicode.C60_is_ascii x64 i m p xs hx)
  | isUtf32le i data =>
    have hi : i ≠ some .sse2 ∧ i ≠ some .ssse3 := ⟨Runs.ne_sse2 hr (by decide), Runs.ne_ssse3 hr (by decide)⟩
    obtain ⟨p, n⟩ := data
    exact only id (ret_ok (Unicode.is_utf32le_tests hi hx.has hl).run)
  | swap t i src dst =>
    have h2 : i ≠ some .sse2 := swap_not_sse2 hr
    obtain ⟨p, n⟩ := src; obtain ⟨q, d⟩ := dst
    dsimp only [Call.shared, Call.exclusive] at *
    dsimp only [Call.Panics, Call.prog]
    constructor
    · intro h
      unfold Unicode.swap_endianness
      by_cases hd : n ≤ d
      · obtain ⟨rfl, h32⟩ := h.resolve_left (by omega)
        rw [show decide (n ≤ d) = true from decide_eq_true hd]
        show (Unicode.swap_auto t (some .ssse3) p n q >>= _ : Prog Slice).run m = _
        rw [run_bind, Unicode.swap_panics t (.inr rfl) ((lanes_le t n).2 h32) hl hx.has]
      · rw [show decide (n ≤ d) = false from decide_eq_false hd]
        rfl
    · intro h
      have hs : Unicode.SwapImpl t i n := by
        by_cases h3 : i = some .ssse3
        · exact .inr (Nat.lt_of_not_le fun h' => h (.inr ⟨h3, (lanes_le t n).1 h'⟩))
        · exact .inl ⟨h2, h3⟩
      exact ret_ok' (Unicode.swap_any hs hl hx hw hb (by omega))
  | swapInplace t i data =>
    have h2 : i ≠ some .sse2 := swap_not_sse2 hr
    obtain ⟨p, n⟩ := data; obtain ⟨xs, hl, hx⟩ := hb
    dsimp only [Call.shared, Call.exclusive] at *
    dsimp only [Call.Panics, Call.prog]
    constructor
    · rintro ⟨rfl, h32⟩
      exact Unicode.swap_panics t (.inr rfl) ((lanes_le t n).2 h32) hl hx.has
    · intro h
      have hs : Unicode.SwapImpl t i n := by
        by_cases h3 : i = some .ssse3
        · exact .inr (Nat.lt_of_not_le fun h' => h ⟨h3, (lanes_le t n).1 h'⟩)
        · exact .inl ⟨h2, h3⟩
      exact ret_ok' (Unicode.swap_inplace_any hs hl hx)

/-- When a call that allocates panics, for a source of the bytes `xs`: an encoder if the text has more than half of `usize::MAX` bytes; an appending one if the
vector cannot grow by the length of the result, for a decoder that which `decoded_length` gives; `forgiving_decode_to_vec` if there is whitespace and no vector of the length of the source can be
allocated. -/
def HeapCall.Panics (P : Plat) (m : Mem) (xs : List Byte) {α : Type} : HeapCall α → Prop
  | .base64Encode _ config _ _ => ∃ url pad, Base64.IsVariant config url pad ∧ P.usizeMax / 2 < (Spec.base64 url pad xs).length
  | .base64EncodeAppend extra _ config _ v => ∃ url pad, Base64.IsVariant config url pad ∧
    ¬ ((Spec.base64 url pad xs).length ≤ P.usizeMax / 2 ∧ Spec.CanGrow P extra v (Spec.base64 url pad xs).length)
  | .base64DecodeAppend extra _ config src v => ∃ k m', (Base64.decoded_length_pub config src).run m = .ok k m' ∧ ¬ Spec.CanGrow P extra v k
  | .forgiving extra _ _ _ => (∃ x ∈ xs, Spec.isWs x = true) ∧ P.isizeMax < xs.length + extra
  | .base32Encode _ _ config _ _ => ∃ hex pad, Base32.IsVariant config hex pad ∧ P.usizeMax / 2 < (Spec.base32 hex pad xs).length
  | .base32EncodeAppend _ extra _ config _ v => ∃ hex pad, Base32.IsVariant config hex pad ∧
    ¬ ((Spec.base32 hex pad xs).length ≤ P.usizeMax / 2 ∧ Spec.CanGrow P extra v (Spec.base32 hex pad xs).length)
  | .base32DecodeAppend _ extra _ config src v => ∃ k m', (Base32.decoded_length_pub config src).run m = .ok k m' ∧ ¬ Spec.CanGrow P extra v k
  | .hexEncode .. => P.usizeMax / 2 < 2 * xs.length
  | .hexEncodeAppend extra _ _ _ v => ¬ (2 * xs.length ≤ P.usizeMax / 2 ∧ Spec.CanGrow P extra v (2 * xs.length))
  | .hexDecodeAppend extra _ _ v => xs.length % 2 = 0 ∧ ¬ Spec.CanGrow P extra v (xs.length / 2)
  | .base64Decode .. | .base32Decode .. | .hexDecode .. => False

theorem DecApi.lengthFn_any (A : DecApi) {m : Mem} {p : Ptr} {xs : List Byte} (hx : HasBytes m p xs) : (A.lengthFn ⟨p, xs.length⟩).run m =
    match A.dlen xs with
    | some r => .ok r.2 m
    | none => .err m := by
  unfold DecApi.lengthFn
  rw [run_bind, A.hD _ _ _ hx]
  cases A.dlen xs <;> rfl

theorem DecApi.append_panics (A : DecApi) (P : Plat) (extra : Nat) {m : Mem} {p : Ptr} {xs prev : List Byte} {v : RVec} (hx : HasBytes m p xs) (hp : p.buf < m.nbuf)
    (hv : Spec.IsVec m v prev) (h0 : p.buf ≠ v.buf) (hc : v.cap ≤ P.isizeMax) :
    ((∃ k m', (A.lengthFn ⟨p, xs.length⟩).run m = .ok k m' ∧ ¬ Spec.CanGrow P extra v k) → (A.append P extra ⟨p, xs.length⟩ v).run m = .panic) ∧
    ((¬ ∃ k m', (A.lengthFn ⟨p, xs.length⟩).run m = .ok k m' ∧ ¬ Spec.CanGrow P extra v k) → Spec.Returns (A.append P extra ⟨p, xs.length⟩ v) m) := by
  have hl := A.lengthFn_any hx
  cases hd : A.dlen xs with
  | none =>
    rw [hd] at hl
    refine ⟨fun ⟨k, m', h, _⟩ => ?_, fun _ => ?_⟩
    · rw [hl] at h; cases h
    · have := (A.append_any_out P extra hx hp hv h0 hc (fun n k h => by rw [hd] at h; cases h)).2 (by simp [DecApi.full, hd])
      exact ret_ok₂ this
  | some r =>
    obtain ⟨n, k⟩ := r
    rw [hd] at hl
    refine ⟨fun ⟨k', m', h, hg⟩ => ?_, fun h => ?_⟩
    · rw [hl] at h; cases h
      exact A.append_panic P extra hx hd hg
    · have hg : Spec.CanGrow P extra v k := by
        by_contra hg
        exact h ⟨k, m, hl, hg⟩
      have := A.append_any_out P extra hx hp hv h0 hc (fun n' k' h => by rw [hd] at h; cases h; exact hg)
      cases hf : A.full xs with
      | none => exact ret_ok₂ (this.2 hf)
      | some ys => exact ret_ok₂ (this.1 ys hf)

/-- C83, the functions that allocate. -/
theorem C83_heap (M : Machine) {α : Type} (c : HeapCall α) (m : Mem) (hr : c.RunsOn M) (hb : c.Borrows M.P m) (xs : List Byte) (hl : xs.length = c.shared.len)
    (hx : Spec.Reads m c.shared.ptr xs) :
    (c.Panics M.P m xs → (c.prog M.P).run m = .panic) ∧ (¬ c.Panics M.P m xs → Spec.Returns (c.prog M.P) m) := by
  obtain ⟨-, hn, hP, hv⟩ := hb
  cases c with
  | base64Encode i config src ty =>
    obtain ⟨hi, url, pad, hc⟩ := hr
    have hi := Runs.ne_sse2 hi (by decide)
    obtain ⟨p, _⟩ := src
    dsimp only [HeapCall.shared] at *; subst hl
    have h := Base64.C61_encode_owned M.P hi hc m p xs hx hn hP
    refine ⟨fun ⟨u, q, hc', hh⟩ => ?_, fun hh => ?_⟩
    · have : (Base64.encode_to_boxed_str M.P i config ⟨p, xs.length⟩).run m = .panic := (h.2 (by rw [← hc.text, hc'.text]; exact hh)).1
      cases ty <;> exact panic_wrap this
    · have : Spec.Returns (Base64.encode_to_boxed_str M.P i config ⟨p, xs.length⟩) m :=
        ret_ok₂ (f := id) (h.1 (by by_contra h'; exact hh ⟨url, pad, hc, by omega⟩)).1
      cases ty <;> exact this.wrap
  | base64Decode i config src ty =>
    refine ⟨False.elim, fun _ => ?_⟩
    obtain ⟨hi, url, pad, hc⟩ := hr
    have hi := Runs.ne_sse2 hi (by decide)
    obtain ⟨p, _⟩ := src
    dsimp only [HeapCall.shared] at *; subst hl
    have h := Base64.C61_decode_owned M.P hi hc m p xs hx hn hP
    have : Spec.Returns (Base64.decode_to_boxed_bytes M.P i config ⟨p, xs.length⟩) m := by
      by_cases hh : ∃ ys, Spec.base64 url pad ys = xs
      · obtain ⟨ys, hy⟩ := hh; exact ret_ok₂ (f := id) (h.1 ys hy).1
      · exact ret_err' (h.2 hh).1
    cases ty <;> exact this.wrap
  | base64EncodeAppend extra i config src v =>
    obtain ⟨hi, url, pad, hc⟩ := hr
    have hi := Runs.ne_sse2 hi (by decide)
    obtain ⟨p, _⟩ := src
    obtain ⟨⟨prev, hv1⟩, hv2, hv3⟩ := hv v rfl
    dsimp only [HeapCall.shared] at *; subst hl
    have h := Base64.C61_encode_append M.P extra hi hc m p xs hx hn hP v prev hv1 hv2 hv3
    refine ⟨fun ⟨u, q, hc', hh⟩ => h.2 ?_, fun hh => ret_ok₂ (f := id) (h.1 ?_)⟩
    · rw [← hc.text, hc'.text]; exact hh
    · by_contra h'; exact hh ⟨url, pad, hc, h'⟩
  | base64DecodeAppend extra i config src v =>
    obtain ⟨hi, url, pad, hc⟩ := hr
    have hi := Runs.ne_sse2 hi (by decide)
    obtain ⟨p, _⟩ := src
    obtain ⟨⟨prev, hv1⟩, hv2, hv3⟩ := hv v rfl
    dsimp only [HeapCall.shared] at *; subst hl
    exact (Base64.decApi hi config).append_panics M.P extra hx.has hn hv1 hv2 hv3
  | forgiving extra fi di src =>
    have hi := Runs.ne_sse2 hr.2 (by decide)
    obtain ⟨p, _⟩ := src
    dsimp only [HeapCall.shared] at *; subst hl
    have h := Base64.C61_forgiving_any M.P extra fi hi m p xs hx hn hP
    refine ⟨h.1, fun hh => ?_⟩
    cases hf : Spec.forgivingDecode xs with
    | some ys => exact ret_ok₂ (f := id) ((h.2 hh).1 ys hf)
    | none => exact ret_err' ((h.2 hh).2 hf)
  | base32Encode w i config src ty =>
    obtain ⟨rfl, hi, hex, pad, hc⟩ := hr
    have hi := Base32.impl_of_runs hi (by decide) (by decide)
    obtain ⟨p, _⟩ := src
    dsimp only [HeapCall.shared] at *; subst hl
    have h := Base32.C61_encode_owned M.P M.wasm hi hc m p xs hx hn hP
    refine ⟨fun ⟨u, q, hc', hh⟩ => ?_, fun hh => ?_⟩
    · have : (Base32.encode_to_boxed_str M.P M.wasm i config ⟨p, xs.length⟩).run m = .panic := (h.2 (by rw [← hc.text, hc'.text]; exact hh)).1
      cases ty <;> exact panic_wrap this
    · have : Spec.Returns (Base32.encode_to_boxed_str M.P M.wasm i config ⟨p, xs.length⟩) m :=
        ret_ok₂ (f := id) (h.1 (by by_contra h'; exact hh ⟨hex, pad, hc, by omega⟩)).1
      cases ty <;> exact this.wrap
  | base32Decode w i config src ty =>
    refine ⟨False.elim, fun _ => ?_⟩
    obtain ⟨rfl, hi, hex, pad, hc⟩ := hr
    have hi := Base32.impl_of_runs hi (by decide) (by decide)
    obtain ⟨p, _⟩ := src
    dsimp only [HeapCall.shared] at *; subst hl
    have h := Base32.C61_decode_owned M.P M.wasm hi hc m p xs hx hn hP
    have : Spec.Returns (Base32.decode_to_boxed_bytes M.P M.wasm i config ⟨p, xs.length⟩) m := by
      by_cases hh : ∃ ys, Spec.base32 hex pad ys = xs
      · obtain ⟨ys, hy⟩ := hh; exact ret_ok₂ (f := id) (h.1 ys hy).1
      · exact ret_err' (h.2 hh).1
    cases ty <;> exact this.wrap
  | base32EncodeAppend w extra i config src v =>
    obtain ⟨rfl, hi, hex, pad, hc⟩ := hr
    have hi := Base32.impl_of_runs hi (by decide) (by decide)
    obtain ⟨p, _⟩ := src
    obtain ⟨⟨prev, hv1⟩, hv2, hv3⟩ := hv v rfl
    dsimp only [HeapCall.shared] at *; subst hl
    have h := Base32.C61_encode_append M.P M.wasm extra hi hc m p xs hx hn hP v prev hv1 hv2 hv3
    refine ⟨fun ⟨u, q, hc', hh⟩ => h.2 ?_, fun hh => ret_ok₂ (f := id) (h.1 ?_)⟩
    · rw [← hc.text, hc'.text]; exact hh
    · by_contra h'; exact hh ⟨hex, pad, hc, h'⟩
  | base32DecodeAppend w extra i config src v =>
    obtain ⟨rfl, hi, hex, pad, hc⟩ := hr
    have hi := Base32.impl_of_runs hi (by decide) (by decide)
    obtain ⟨p, _⟩ := src
    obtain ⟨⟨prev, hv1⟩, hv2, hv3⟩ := hv v rfl
    dsimp only [HeapCall.shared] at *; subst hl
    exact (Base32.decApi M.wasm hi (j := none) (by simp) config).append_panics M.P extra hx.has hn hv1 hv2 hv3
  | hexEncode i case src ty =>
    obtain ⟨p, _⟩ := src
    dsimp only [HeapCall.shared] at *; subst hl
    have h := Hex.C61_encode_owned M.P i case m p xs hx hn hP
    simp only [Hex.hexEncode_length] at h
    refine ⟨fun hh => ?_, fun hh => ?_⟩
    · have : (Hex.encode_to_boxed_str M.P i ⟨p, xs.length⟩ case).run m = .panic := (h.2 hh).1
      cases ty <;> exact panic_wrap this
    · have : Spec.Returns (Hex.encode_to_boxed_str M.P i ⟨p, xs.length⟩ case) m := ret_ok₂ (f := id) (h.1 (Nat.le_of_not_lt hh)).1
      cases ty <;> exact this.wrap
  | hexDecode i src ty =>
    refine ⟨False.elim, fun _ => ?_⟩
    obtain ⟨p, _⟩ := src
    dsimp only [HeapCall.shared] at *; subst hl
    have h := Hex.C61_decode_owned M.P i m p xs hx hn hP
    have : Spec.Returns (Hex.decode_to_boxed_bytes M.P i ⟨p, xs.length⟩) m := by
      by_cases hh : ∃ ys, Spec.IsHexOf xs ys
      · obtain ⟨ys, hy⟩ := hh; exact ret_ok₂ (f := id) (h.1 ys hy).1
      · exact ret_err' (h.2 hh).1
    cases ty <;> exact this.wrap
  | hexEncodeAppend extra i case src v =>
    obtain ⟨p, _⟩ := src
    obtain ⟨⟨prev, hv1⟩, hv2, hv3⟩ := hv v rfl
    dsimp only [HeapCall.shared] at *; subst hl
    have h := Hex.C61_encode_append M.P extra i case m p xs hx hn hP v prev hv1 hv2 hv3
    simp only [Hex.hexEncode_length] at h
    exact ⟨h.2, fun hh => ret_ok₂ (f := id) (h.1 (Classical.not_not.1 hh))⟩
  | hexDecodeAppend extra i src v =>
    obtain ⟨p, _⟩ := src
    obtain ⟨⟨prev, hv1⟩, hv2, hv3⟩ := hv v rfl
    dsimp only [HeapCall.shared] at *; subst hl
    have h := Hex.C61_decode_append_any M.P extra i m p xs hx hn v prev hv1 hv2 hv3
    refine ⟨h.1, fun hg => ?_⟩
    by_cases hh : ∃ ys, Spec.IsHexOf xs ys
    · obtain ⟨ys, hy⟩ := hh; exact ret_ok₂ ((h.2 hg).1 ys hy)
    · exact ret_ok₂ ((h.2 hg).2 hh)

/-! ### Calls that never panic -/

/-- How much more the allocator gives than what was asked for. -/
def HeapCall.extra {α : Type} : HeapCall α → Nat
  | .base64EncodeAppend extra .. | .base64DecodeAppend extra .. | .forgiving extra .. | .base32EncodeAppend _ extra .. | .base32DecodeAppend _ extra ..
  | .hexEncodeAppend extra .. | .hexDecodeAppend extra .. => extra
  | _ => 0

/-- The length of the vector appended to. -/
def HeapCall.held {α : Type} (c : HeapCall α) : Nat := (c.vec.map (·.len)).getD 0

theorem DecApi.grows (A : DecApi) {P : Plat} {extra : Nat} {m : Mem} {p : Ptr} {xs : List Byte} {v : RVec} (hx : HasBytes m p xs)
    (h : v.len + xs.length + extra ≤ P.isizeMax) : ¬ ∃ k m', (A.lengthFn ⟨p, xs.length⟩).run m = .ok k m' ∧ ¬ Spec.CanGrow P extra v k := by
  rintro ⟨k, m', hk, hg⟩
  rw [A.lengthFn_any hx] at hk
  cases hd : A.dlen xs with
  | none => rw [hd] at hk; cases hk
  | some r =>
    obtain ⟨n, k'⟩ := r
    rw [hd] at hk; cases hk
    have := A.hle _ _ _ hd
    exact hg (.inr (by omega))

/-- C83: twice the length of the source and 6 bytes of padding are always enough: a call for which a vector of so many more bytes than there are can exist does not panic. -/
theorem C83_never (M : Machine) {α : Type} (c : HeapCall α) (m : Mem) (hr : c.RunsOn M) (hb : c.Borrows M.P m)
    (h : c.held + 2 * c.shared.len + 6 + c.extra ≤ M.P.isizeMax) : Spec.Returns (c.prog M.P) m := by
  obtain ⟨xs, hl, hx⟩ := hb.1
  refine (C83_heap M c m hr hb xs hl hx).2 ?_
  have hu := isizeMax_le M.P
  have e64 : ∀ url pad, (Spec.base64 url pad xs).length ≤ 2 * xs.length + 6 := fun url pad => by
    rw [Base64.base64_length]; unfold Base64.encLen; split <;> [skip; split] <;> omega
  have e32 : ∀ hex pad, (Spec.base32 hex pad xs).length ≤ 2 * xs.length + 6 := fun hex pad => by
    rw [Base32.base32_length]; unfold Base32.encLen Base32.tailLen; split_ifs <;> omega
  rw [← hl] at h
  cases c with
  | base64Encode i config src ty => rintro ⟨url, pad, -, hh⟩; have := e64 url pad; dsimp only [HeapCall.held, HeapCall.extra] at h; omega
  | base32Encode w i config src ty => rintro ⟨url, pad, -, hh⟩; have := e32 url pad; dsimp only [HeapCall.held, HeapCall.extra] at h; omega
  | hexEncode i case src ty => intro (hh : _ < _); dsimp only [HeapCall.held, HeapCall.extra] at h; omega
  | base64Decode | base32Decode | hexDecode => exact id
  | base64EncodeAppend extra i config src v =>
    rintro ⟨url, pad, -, hh⟩; have := e64 url pad
    simp only [HeapCall.held, HeapCall.extra, HeapCall.vec, Option.map_some, Option.getD_some] at h
    exact hh ⟨by omega, .inr (by omega)⟩
  | base32EncodeAppend w extra i config src v =>
    rintro ⟨url, pad, -, hh⟩; have := e32 url pad
    simp only [HeapCall.held, HeapCall.extra, HeapCall.vec, Option.map_some, Option.getD_some] at h
    exact hh ⟨by omega, .inr (by omega)⟩
  | hexEncodeAppend extra i case src v =>
    intro hh
    simp only [HeapCall.held, HeapCall.extra, HeapCall.vec, Option.map_some, Option.getD_some] at h
    exact hh ⟨by omega, .inr (by omega)⟩
  | hexDecodeAppend extra i src v =>
    rintro ⟨-, hh⟩
    simp only [HeapCall.held, HeapCall.extra, HeapCall.vec, Option.map_some, Option.getD_some] at h
    exact hh (.inr (by omega))
  | forgiving extra fi di src => rintro ⟨-, hh⟩; dsimp only [HeapCall.held, HeapCall.extra] at h; omega
  | base64DecodeAppend extra i config src v =>
    obtain ⟨p, _⟩ := src
    simp only [HeapCall.held, HeapCall.extra, HeapCall.vec, Option.map_some, Option.getD_some] at h
    dsimp only [HeapCall.shared] at *; subst hl
    exact (Base64.decApi (Runs.ne_sse2 hr.1 (by decide)) config).grows hx.has (by omega)
  | base32DecodeAppend w extra i config src v =>
    obtain ⟨p, _⟩ := src
    simp only [HeapCall.held, HeapCall.extra, HeapCall.vec, Option.map_some, Option.getD_some] at h
    dsimp only [HeapCall.shared] at *; subst hl
    exact (Base32.decApi M.wasm (Base32.impl_of_runs hr.2.1 (by decide) (by decide)) (j := none) (by simp) config).grows hx.has (by omega)

/-- C83 for any call. -/
theorem C83_any (M : Machine) {α : Type} (c : AnyCall α) (m : Mem) :
    match c with
    | .inl c => c.MayRun M → c.Borrowed M.P m → ((c.prog M.P).run m = .panic ↔ c.Panics)
    | .inr c => c.RunsOn M → c.Borrows M.P m → ∀ xs, xs.length = c.shared.len → Spec.Reads m c.shared.ptr xs → ((c.prog M.P).run m = .panic ↔ c.Panics M.P m xs) := by
  have hne : ∀ {β : Type} {x : Prog β}, Spec.Returns x m → x.run m ≠ .panic := by
    rintro β x (⟨a, m', h⟩ | ⟨m', h⟩) h' <;> rw [h] at h' <;> cases h'
  cases c with
  | inl c =>
    intro hr hb
    have := C83_slices M c m hr hb
    exact ⟨fun h => by_contra fun h' => hne (this.2 h') h, this.1⟩
  | inr c =>
    intro hr hb xs hl hx
    have := C83_heap M c m hr hb xs hl hx
    exact ⟨fun h => by_contra fun h' => hne (this.2 h') h, this.1⟩

/-! ### Examples -/

/-- A computer with SSSE3 and nothing newer. -/
def ssse3Only : Machine := ⟨⟨.x86_64, true, false, fun t => t == .sse2⟩, fun t => t == .sse2 || t == .ssse3, ⟨64, by omega⟩⟩

/-- 32 zero bytes, and 16 uninitialised ones. -/
def zeros : Mem := Mem.ofBufs [List.replicate 32 (some 0#8), List.replicate 16 none]

theorem zeros_reads {n : Nat} (hn : n ≤ 32) : Spec.Reads zeros ⟨0, 0⟩ (List.replicate n 0#8) := ⟨by simpa [zeros, Mem.ofBufs] using hn, fun i h => by
  have h : i < 32 := by simp at h; omega
  have : ∀ i < 32, zeros.cell 0 i = some 0#8 := by decide
  simpa using this i h⟩

/-- 16 code units: panic. 15: no panic. -/
example : (Unicode.swap_endianness_inplace .u16 (some .ssse3) ⟨⟨0, 0⟩, 16⟩).run zeros = .panic ∧ Spec.Returns (Unicode.swap_endianness_inplace .u16 (some .ssse3) ⟨⟨0, 0⟩, 15⟩) zeros := by
  have hr : ssse3Only.Runs unicode_utf16_swap (some .ssse3) := runs_first _ _ _ (by decide) (by decide)
  have hb : ∀ n, n ≤ 16 → (Call.swapInplace .u16 (some .ssse3) ⟨⟨0, 0⟩, n⟩).Borrowed ssse3Only.P zeros := fun n hn =>
    ⟨⟨[], rfl, Nat.zero_le _, fun i h => absurd h (Nat.not_lt_zero _)⟩, by simpa [Call.exclusive, Unicode.Elem.size, zeros, Mem.ofBufs, Spec.Writable] using by omega, Nat.zero_le _,
      by show 2 * n ≤ 2 ^ 63 - 1; omega, List.replicate (2 * n) 0#8, by simp [Call.exclusive, Unicode.Elem.size], zeros_reads (by omega)⟩
  exact ⟨(C83_slices ssse3Only (.swapInplace .u16 (some .ssse3) ⟨⟨0, 0⟩, 16⟩) zeros hr (hb 16 (by omega))).1 ⟨rfl, by decide⟩,
    (C83_slices ssse3Only (.swapInplace .u16 (some .ssse3) ⟨⟨0, 0⟩, 15⟩) zeros hr (hb 15 (by omega))).2 fun h => absurd h.2 (by decide)⟩

/-- Appending the text of two bytes to a vector that must grow. -/
example : Spec.Returns (Base64.encode_append sender.P 5 (some .avx2) Base64.STANDARD ⟨⟨0, 1⟩, 2⟩ ⟨1, 1, 3⟩) heapMem :=
  C83_never sender (.base64EncodeAppend 5 (some .avx2) Base64.STANDARD ⟨⟨0, 1⟩, 2⟩ ⟨1, 1, 3⟩) heapMem
    ⟨runs_first _ _ _ (by decide) (by decide), false, true, by unfold Base64.IsVariant; simp⟩
    ⟨⟨_, rfl, heapMem_reads⟩, by decide, by decide, fun v hv => by
      cases hv; exact ⟨⟨_, heapMem_vec⟩, by decide, by decide⟩⟩ (by decide)

end Simd
