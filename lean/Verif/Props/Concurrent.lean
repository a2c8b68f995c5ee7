import Verif.Lemmas.Concurrent
import Verif.Model.Calls
import Verif.Props.Footprint
import Verif.Props.Interop
/-
C78: functions called at the same time by different threads do not disturb each other.
-/
namespace Simd
open Dispatch

/-- C78 for any programs: if the bytes each thread stores, when run alone, are neither loaded nor stored by the others when they are run alone, then the threads do not
disturb each other, whatever the schedule. -/
theorem C78_isolated {k : Nat} {α : Fin k → Type} (x : (t : Fin k) → Prog (α t)) (m : Mem) (hn : ∀ t, Uses' (fun _ => True) (fun _ => True) (x t))
    (hu : ∀ t, (x t).run m ≠ .ub)
    (hd : ∀ t u, t ≠ u → ∀ p n, .store p n ∈ (x t).trace m → ∀ a ∈ (x u).trace m, ∀ b i, Spec.In p n b i → ¬ Spec.Covers a b i) :
    Spec.Isolated x m (fun t b i => ∃ p n, .store p n ∈ (x t).trace m ∧ Spec.In p n b i) := by
  refine isolated (R := fun t b i => ∃ p n, .load p n ∈ (x t).trace m ∧ Spec.In p n b i) hn hu (fun t a ha => ?_) fun t u htu b i hw h => ?_
  · cases a with
    | load p n => exact fun b i h => ⟨p, n, ha, h⟩
    | store p n => exact fun b i h => ⟨p, n, ha, h⟩
  · obtain ⟨p, n, h1, h2⟩ := hw
    rcases h with ⟨q, l, h3, h4⟩ | ⟨q, l, h3, h4⟩
    · exact hd t u htu p n h1 _ h3 b i h2 h4
    · exact hd t u htu p n h1 _ h3 b i h2 h4

/-- The implementations a call uses are ones that the machine may execute, and the parameters are those of the published constants. (For the endianness swaps the case of finding A, in which
the code panics, is left out.) -/
def Call.RunsOn (M : Machine) {α : Type} : Call α → Prop
  | .base64Encode i config _ _ => M.Runs base64_encode i ∧ ∃ url pad, Base64.IsVariant config url pad
  | .base64Decode i config _ _ | .base64Inplace i config _ => M.Runs base64_decode i ∧ ∃ url pad, Base64.IsVariant config url pad
  | .base64Check i config _ => M.Runs base64_check i ∧ ∃ url pad, Base64.IsVariant config url pad
  | .forgiving fi di _ _ | .forgivingInplace fi di _ => M.Runs base64_find fi ∧ M.Runs base64_decode di
  | .base32Encode w i config _ _ => w = M.wasm ∧ M.Runs base32_encode i ∧ ∃ hex pad, Base32.IsVariant config hex pad
  | .base32Decode w i config _ _ | .base32Inplace w i config _ => w = M.wasm ∧ M.Runs base32_decode i ∧ ∃ hex pad, Base32.IsVariant config hex pad
  | .base32Check i config _ => M.Runs base32_check i ∧ ∃ hex pad, Base32.IsVariant config hex pad
  | .hexEncode i _ _ _ => M.Runs hex_encode i
  | .hexDecode i _ _ | .hexInplace i _ => M.Runs hex_decode i
  | .hexCheck i _ => M.Runs hex_check i
  | .uuidParse si hi _ _ => M.Runs uuid_parse_simple si ∧ M.Runs uuid_parse_hyphenated hi
  | .uuidParseSimple i _ _ => M.Runs uuid_parse_simple i
  | .uuidParseHyphenated i _ _ => M.Runs uuid_parse_hyphenated i
  | .uuidFormatSimple i _ _ _ => M.Runs uuid_format_simple i
  | .uuidFormatHyphenated i _ _ _ => M.Runs uuid_format_hyphenated i
  | .isAscii _ i _ => M.Runs unicode_is_ascii i
  | .isUtf32le i _ => M.Runs unicode_is_utf32le i
  | .swap t i src _ => Unicode.SwapImpl t i src.len
  | .swapInplace t i data => Unicode.SwapImpl t i data.len

/-- What safe Rust guarantees about the arguments of one call: what is borrowed with `&` is initialised; what is borrowed with `&mut` is there, has no byte in common
with what is borrowed with `&`, and for the in-place functions is initialised; no slice has more than `isize::MAX` bytes. -/
def Call.Borrows (P : Plat) (m : Mem) {α : Type} (c : Call α) : Prop :=
  (∃ xs, xs.length = c.shared.2 ∧ Spec.Reads m c.shared.1 xs) ∧ Spec.Writable m c.exclusive.1 c.exclusive.2 ∧ c.shared.2 ≤ P.isizeMax ∧ c.exclusive.2 ≤ P.isizeMax ∧
  match c with
  | .base64Inplace .. | .forgivingInplace .. | .base32Inplace .. | .hexInplace .. | .swapInplace .. =>
    ∃ xs, xs.length = c.exclusive.2 ∧ Spec.Reads m c.exclusive.1 xs
  | .base64Check .. | .base32Check .. | .hexCheck .. | .isAscii .. | .isUtf32le .. => True
  | _ => Spec.NoOverlap c.shared.1 c.shared.2 c.exclusive.1 c.exclusive.2

theorem Unicode.swap_confined {t : Unicode.Elem} {i : Option Isa} {n k : Nat} (hi : Unicode.SwapImpl t i n) {xs : List Byte} (hl : xs.length = t.size * n) {m : Mem} {p q : Ptr}
    (hr : Spec.Reads m p xs) (hw : Spec.Writable m q (t.size * k)) (ho : Spec.NoOverlap p (t.size * n) q (t.size * k)) (hk : n ≤ k) :
    Spec.Confined ((Unicode.swap_endianness t i ⟨p, n⟩ ⟨q, k⟩).trace m) p (t.size * n) q (t.size * n) :=
  hl ▸ confined_any (d := t.size * k) (fun p q => Unicode.swap_endianness t i ⟨p, n⟩ ⟨q, k⟩) (fun _ _ _ => Unicode.ren_swap_endianness ..) (fun _ _ => Unicode.uses_swap_endianness trivial trivial ..)
    (fun m p q hr hw ho => ok_ne (Unicode.swap_any hi hl hr hw (hl ▸ ho) hk))
    (fun m p q h hr hw => conf_wrote h (Unicode.uses_swap_endianness (L := (· = p.buf)) (W := (· = q.buf)) (src := ⟨p, _⟩) (dst := ⟨q, k⟩) rfl rfl t i)
      (Unicode.swap_any hi hl (Mem.keep_reads hr) hw (noOverlap_of_ne h _ _) hk) (by rw [Unicode.swapB_length _ (by cases t <;> decide) hl, hl]))
    (by rw [hl]; exact Nat.mul_le_mul_left _ hk) hr hw (hl.symm ▸ ho)

/-- A call alone: it allocates nothing, has no undefined behaviour, loads only from what it borrows and stores only to what it borrows with `&mut`. -/
structure Fine {α : Type} (x : Prog α) (m : Mem) (p : Ptr) (n : Nat) (q : Ptr) (d : Nat) : Prop where
  noalloc : NoAlloc x
  safe : x.run m ≠ .ub
  inside : Inside (fun b i => Spec.In p n b i ∨ Spec.In q d b i) (fun b i => Spec.In q d b i) (x.trace m)

theorem Spec.Confined.inside {t : List Access} {p q : Ptr} {n d e : Nat} (h : Spec.Confined t p n q d) (hd : d ≤ e) :
    Inside (fun b i => Spec.In p n b i ∨ Spec.In q e b i) (fun b i => Spec.In q e b i) t := by
  intro a ha
  have := h a ha
  cases a with
  | load r k => exact fun b i hi => .inl (in_cover this b i hi)
  | store r k => exact fun b i hi => in_mono hd (in_cover this b i hi)

theorem Spec.Confined.inside_inplace {t : List Access} {p : Ptr} {n : Nat} (h : Spec.Confined t p n p n) (r : Ptr) (k : Nat) :
    Inside (fun b i => Spec.In r k b i ∨ Spec.In p n b i) (fun b i => Spec.In p n b i) t := by
  intro a ha
  have := h a ha
  cases a with
  | load r k => exact fun b i hi => .inr (in_cover this b i hi)
  | store r k => exact fun b i hi => in_cover this b i hi

theorem Spec.ReadOnly.inside {t : List Access} {p : Ptr} {n : Nat} (h : Spec.ReadOnly t p n) (r : Ptr) (k : Nat) :
    Inside (fun b i => Spec.In p n b i ∨ Spec.In r k b i) (fun b i => Spec.In r k b i) t := by
  intro a ha
  obtain ⟨s, l, rfl, hl⟩ := h a ha
  exact fun b i hi => .inl (in_cover hl b i hi)

theorem Spec.Staged.inside {t : List Access} {p q : Ptr} {n d e : Nat} (h : Spec.Staged t p n q d) (hd : d ≤ e) :
    Inside (fun b i => Spec.In p n b i ∨ Spec.In q e b i) (fun b i => Spec.In q e b i) t := by
  intro a ha
  have := h.2 a ha
  cases a with
  | load r k =>
    rintro b i ⟨rfl, h1, h2⟩
    have := this (i - r.off) (by omega)
    rw [show r.off + (i - r.off) = i by omega] at this
    exact this.imp id (in_mono hd)
  | store r k => exact fun b i hi => in_mono hd (in_cover this b i hi)

theorem Base64.forgiving_short (fi di : Option Isa) (p q : Ptr) (m : Mem) {n d : Nat} (h : ¬ n ≤ d) :
    (Base64.forgiving_decode fi di ⟨p, n⟩ ⟨q, d⟩).run m = .err m ∧ (Base64.forgiving_decode fi di ⟨p, n⟩ ⟨q, d⟩).trace m = [] := by
  unfold Base64.forgiving_decode
  dsimp only
  rw [decide_eq_false h]
  exact ⟨rfl, rfl⟩

theorem Unicode.swap_short (t : Unicode.Elem) (i : Option Isa) (p q : Ptr) (m : Mem) {n d : Nat} (h : ¬ n ≤ d) :
    (Unicode.swap_endianness t i ⟨p, n⟩ ⟨q, d⟩).run m = .panic ∧ (Unicode.swap_endianness t i ⟨p, n⟩ ⟨q, d⟩).trace m = [] := by
  unfold Unicode.swap_endianness
  dsimp only
  rw [decide_eq_false h]
  exact ⟨rfl, rfl⟩

theorem Call.fine (M : Machine) {α : Type} (c : Call α) (m : Mem) (hr : c.RunsOn M) (hb : c.Borrows M.P m) :
    Fine (c.prog M.P) m c.shared.1 c.shared.2 c.exclusive.1 c.exclusive.2 := by
  obtain ⟨⟨xs, hl, hx⟩, hw, hP, hP', hb⟩ := hb
  have hmax : M.P.isizeMax ≤ M.P.usizeMax := by
    unfold Plat.isizeMax Plat.usizeMax
    have : 2 ^ (M.P.bits - 1) ≤ 2 ^ M.P.bits := Nat.pow_le_pow_right (by omega) (by omega)
    omega
  cases c with
  | base64Encode i config src dst =>
    obtain ⟨hi, url, pad, hv⟩ := hr
    have hi := Runs.ne_sse2 hi (by decide)
    obtain ⟨p, _⟩ := src; obtain ⟨q, d⟩ := dst
    dsimp only [Call.shared, Call.exclusive] at *; subst hl
    exact ⟨Base64.uses_encode trivial trivial M.P i config, Base64.safe_encode M.P hi hv hP m p q hx hw hb,
      (Base64.C63_encode M.P hi hv m p q xs d hx hw hb hP).inside (by split <;> omega)⟩
  | base64Decode i config src dst =>
    obtain ⟨hi, url, pad, hv⟩ := hr
    have hi := Runs.ne_sse2 hi (by decide)
    obtain ⟨p, _⟩ := src; obtain ⟨q, d⟩ := dst
    dsimp only [Call.shared, Call.exclusive] at *; subst hl
    refine ⟨Base64.uses_decode trivial trivial i config, Base64.safe_decode hi hv m p q hx hw hb, ?_⟩
    by_cases h : ∃ ys, Spec.base64 url pad ys = xs
    · obtain ⟨ys, rfl⟩ := h
      exact (Base64.C63_decode hi hv m p q ys d hx hw hb).inside (by split <;> omega)
    · exact (Base64.C63_decode_err hi hv m p q xs d hx hw hb h).inside (Nat.le_refl _)
  | base64Inplace i config data =>
    obtain ⟨hi, url, pad, hv⟩ := hr
    have hi := Runs.ne_sse2 hi (by decide)
    obtain ⟨p, _⟩ := data; obtain ⟨xs, hl, hx⟩ := hb
    dsimp only [Call.shared, Call.exclusive] at *; subst hl
    refine ⟨Base64.uses_decode_inplace trivial trivial i config, ?_, (Base64.C63_inplace hi hv m p xs hx).inside_inplace _ _⟩
    have := Base64.C59_inplace hi hv m p xs hx
    by_cases h : ∃ ys, Spec.base64 url pad ys = xs
    · obtain ⟨ys, h⟩ := h; exact ok_ne (this.1 ys h)
    · exact err_ne (this.2 h)
  | base64Check i config data =>
    obtain ⟨hi, url, pad, hv⟩ := hr
    have hi := Runs.ne_sse2 hi (by decide)
    obtain ⟨p, _⟩ := data
    dsimp only [Call.shared, Call.exclusive] at *; subst hl
    refine ⟨Base64.uses_check trivial i config, ?_, (Base64.C63_check hi hv m p xs hx).inside _ _⟩
    have := Base64.C59_check hi hv m p xs hx
    by_cases h : ∃ ys, Spec.base64 url pad ys = xs
    · exact ok_ne' (this.1 h)
    · exact err_ne' (this.2 h)
  | forgiving fi di src dst =>
    have hi := Runs.ne_sse2 hr.2 (by decide)
    obtain ⟨p, _⟩ := src; obtain ⟨q, d⟩ := dst
    dsimp only [Call.shared, Call.exclusive] at *; subst hl
    by_cases hd : xs.length ≤ d
    case neg => exact ⟨Base64.uses_forgiving trivial trivial trivial fi di, (Base64.forgiving_short fi di p q m hd).1 ▸ nofun, (Base64.forgiving_short fi di p q m hd).2 ▸ nofun⟩
    exact ⟨Base64.uses_forgiving trivial trivial trivial fi di, Base64.safe_forgiving fi hi hd m p q hx hw hb, (Base64.C63_forgiving fi hi m p q xs d hx hw hb hd).inside hd⟩
  | forgivingInplace fi di data =>
    have hi := Runs.ne_sse2 hr.2 (by decide)
    obtain ⟨p, _⟩ := data; obtain ⟨xs, hl, hx⟩ := hb
    dsimp only [Call.shared, Call.exclusive] at *; subst hl
    refine ⟨Base64.uses_forgiving_inplace trivial trivial fi di, ?_, (Base64.C63_forgiving_inplace fi hi m p xs hx).inside_inplace _ _⟩
    have := Base64.C59_forgiving_inplace fi hi m p xs hx
    cases h : Spec.forgivingDecode xs with
    | some ys => exact ok_ne (this.1 ys h)
    | none => exact err_ne (this.2 h)
  | base32Encode w i config src dst =>
    obtain ⟨rfl, hi, hex, pad, hv⟩ := hr
    have hi := Base32.impl_of_runs hi (by decide) (by decide)
    obtain ⟨p, _⟩ := src; obtain ⟨q, d⟩ := dst
    dsimp only [Call.shared, Call.exclusive] at *; subst hl
    exact ⟨Base32.uses_encode trivial trivial M.P M.wasm i config, Base32.safe_encode M.P M.wasm hi hv hP m p q hx hw hb,
      (Base32.C63_encode M.P M.wasm hi hv m p q xs d hx hw hb hP).inside (by split <;> omega)⟩
  | base32Decode w i config src dst =>
    obtain ⟨rfl, hi, hex, pad, hv⟩ := hr
    have hi := Base32.impl_of_runs hi (by decide) (by decide)
    obtain ⟨p, _⟩ := src; obtain ⟨q, d⟩ := dst
    dsimp only [Call.shared, Call.exclusive] at *; subst hl
    refine ⟨Base32.uses_decode trivial trivial M.wasm i config, Base32.safe_decode M.wasm hi hv m p q hx hw hb, ?_⟩
    by_cases h : ∃ ys, Spec.base32 hex pad ys = xs
    · obtain ⟨ys, rfl⟩ := h
      exact (Base32.C63_decode M.wasm hi hv m p q ys d hx hw hb).inside (by split <;> omega)
    · exact (Base32.C63_decode_err M.wasm hi hv m p q xs d hx hw hb h).inside (Nat.le_refl _)
  | base32Inplace w i config data =>
    obtain ⟨rfl, hi, hex, pad, hv⟩ := hr
    have hi := Base32.impl_of_runs hi (by decide) (by decide)
    obtain ⟨p, _⟩ := data; obtain ⟨xs, hl, hx⟩ := hb
    dsimp only [Call.shared, Call.exclusive] at *; subst hl
    refine ⟨Base32.uses_decode_inplace trivial trivial M.wasm i config, ?_, (Base32.C63_inplace M.wasm hi hv m p xs hx).inside_inplace _ _⟩
    have := Base32.C59_inplace M.wasm hi hv m p xs hx
    by_cases h : ∃ ys, Spec.base32 hex pad ys = xs
    · obtain ⟨ys, h⟩ := h; exact ok_ne (this.1 ys h)
    · exact err_ne (this.2 h)
  | base32Check i config data =>
    obtain ⟨hi, hex, pad, hv⟩ := hr
    have hi := Runs.ne_sse2 hi (by decide)
    obtain ⟨p, _⟩ := data
    dsimp only [Call.shared, Call.exclusive] at *; subst hl
    refine ⟨Base32.uses_check trivial i config, ?_, (Base32.C63_check hi hv m p xs hx).inside _ _⟩
    have := Base32.C59_check hi hv m p xs hx
    by_cases h : ∃ ys, Spec.base32 hex pad ys = xs
    · exact ok_ne' (this.1 h)
    · exact err_ne' (this.2 h)
  | hexEncode i case src dst =>
    obtain ⟨p, _⟩ := src; obtain ⟨q, d⟩ := dst
    dsimp only [Call.shared, Call.exclusive] at *; subst hl
    exact ⟨Hex.uses_encode trivial trivial M.P i case, Hex.safe_encode M.P i case (by omega) m p q hx hw hb,
      (Hex.C63_encode M.P i case m p q xs d hx hw hb (by omega)).inside (by split <;> omega)⟩
  | hexDecode i src dst =>
    obtain ⟨p, _⟩ := src; obtain ⟨q, d⟩ := dst
    dsimp only [Call.shared, Call.exclusive] at *; subst hl
    exact ⟨Hex.uses_decode trivial trivial i, Hex.safe_decode i m p q hx hw hb, (Hex.C63_decode i m p q xs d hx hw hb).inside (by split <;> omega)⟩
  | hexInplace i data =>
    obtain ⟨p, _⟩ := data; obtain ⟨xs, hl, hx⟩ := hb
    dsimp only [Call.shared, Call.exclusive] at *; subst hl
    refine ⟨Hex.uses_decode_inplace trivial trivial i, ?_, (Hex.C63_inplace i m p xs hx).inside_inplace _ _⟩
    have := Hex.C59_inplace i m p xs hx
    by_cases h : ∃ ys, Spec.IsHexOf xs ys
    · obtain ⟨ys, h⟩ := h; exact ok_ne (this.1 ys h)
    · exact err_ne (this.2 h)
  | hexCheck i data =>
    obtain ⟨p, _⟩ := data
    dsimp only [Call.shared, Call.exclusive] at *; subst hl
    refine ⟨Hex.uses_check_auto trivial i _, ?_, (Hex.C63_check i m p xs hx).1.inside _ _⟩
    have : (Hex.check i ⟨p, xs.length⟩).run m = _ := Hex.C58_check_raw i m p xs hx
    split at this
    · exact ok_ne' this
    · exact err_ne' this
  | uuidParse si hi src q =>
    have hh : Uuid.HypImpl hi := ⟨Runs.ne_sse2 hr.2 (by decide), Runs.ne_ssse3 hr.2 (by decide)⟩
    obtain ⟨p, _⟩ := src
    dsimp only [Call.shared, Call.exclusive] at *; subst hl
    exact ⟨Uuid.uses_parse trivial trivial si hi, Uuid.safe_parse si hh m p q hx hw hb, (Uuid.C63_parse si hh m p q xs hx hw hb).inside (Nat.le_refl _)⟩
  | uuidParseSimple i src q =>
    obtain ⟨p, _⟩ := src
    dsimp only [Call.shared, Call.exclusive] at *; subst hl
    exact ⟨Uuid.uses_parse_simple trivial trivial i, Uuid.safe_parse_simple i m p q hx hw hb, (Uuid.C63_parse_simple i m p q xs hx hw hb).inside (Nat.le_refl _)⟩
  | uuidParseHyphenated i src q =>
    have hh : Uuid.HypImpl i := ⟨Runs.ne_sse2 hr (by decide), Runs.ne_ssse3 hr (by decide)⟩
    obtain ⟨p, _⟩ := src
    dsimp only [Call.shared, Call.exclusive] at *; subst hl
    exact ⟨Uuid.uses_parse_hyphenated trivial trivial i, Uuid.safe_parse_hyphenated hh m p q hx hw hb, (Uuid.C63_parse_hyphenated hh m p q xs hx hw hb).inside (Nat.le_refl _)⟩
  | uuidFormatSimple i case p q =>
    dsimp only [Call.shared, Call.exclusive] at *
    exact ⟨Uuid.uses_format_simple trivial trivial i case, ok_ne (Uuid.C60_format_simple i case m p q xs hl hx hw hb),
      (Uuid.C63_format_simple i case m p q xs hl hx hw hb).inside (Nat.le_refl _)⟩
  | uuidFormatHyphenated i case p q =>
    have hh : Uuid.HypImpl i := ⟨Runs.ne_sse2 hr (by decide), Runs.ne_ssse3 hr (by decide)⟩
    dsimp only [Call.shared, Call.exclusive] at *
    exact ⟨Uuid.uses_format_hyphenated trivial trivial i case, ok_ne (Uuid.C60_format_hyphenated hh case m p q xs hl hx hw hb),
      (Uuid.C63_format_hyphenated hh case m p q xs hl hx hw hb).inside (Nat.le_refl _)⟩
  | isAscii x64 i data =>
    obtain ⟨p, _⟩ := data
    dsimp only [Call.shared, Call.exclusive] at *; subst hl
    exact ⟨Unicode.uses_is_ascii trivial x64 i, ok_ne' (Unicode.C60_is_ascii x64 i m p xs hx), (Unicode.C63_is_ascii x64 i m p xs hx).1.inside _ _⟩
  | isUtf32le i data =>
    have hi : i ≠ some .sse2 ∧ i ≠ some .ssse3 := ⟨Runs.ne_sse2 hr (by decide), Runs.ne_ssse3 hr (by decide)⟩
    obtain ⟨p, n⟩ := data
    dsimp only [Call.shared, Call.exclusive] at *
    refine ⟨Unicode.uses_is_utf32le trivial i, ok_ne' (Unicode.is_utf32le_tests hi hx.has hl).run, Spec.ReadOnly.inside ?_ _ _⟩
    have hx' := Mem.keep_reads hx
    rw [hl] at hx'
    exact readOnly (Unicode.uses_is_utf32le (L := fun _ => True) (W := fun _ => False) (d := ⟨p, n⟩) trivial i)
      (.inl ⟨_, (Unicode.is_utf32le_tests hi hx'.has hl).run⟩) rfl
  | swap t i src dst =>
    obtain ⟨p, n⟩ := src; obtain ⟨q, d⟩ := dst
    dsimp only [Call.shared, Call.exclusive] at *
    by_cases hd : n ≤ d
    case neg => exact ⟨Unicode.uses_swap_endianness trivial trivial t i, (Unicode.swap_short t i p q m hd).1 ▸ nofun, (Unicode.swap_short t i p q m hd).2 ▸ nofun⟩
    have hle : t.size * n ≤ t.size * d := Nat.mul_le_mul_left _ hd
    exact ⟨Unicode.uses_swap_endianness trivial trivial t i, ok_ne (Unicode.swap_any hr hl hx hw hb hd), (Unicode.swap_confined hr hl hx hw hb hd).inside hle⟩
  | swapInplace t i data =>
    obtain ⟨p, n⟩ := data; obtain ⟨xs, hl, hx⟩ := hb
    dsimp only [Call.shared, Call.exclusive] at *
    refine ⟨Unicode.uses_swap_endianness_inplace trivial trivial t i, ?_, Spec.Confined.inside_inplace ?_ _ _⟩
    · exact ok_ne (Unicode.swap_inplace_any hr hl hx)
    · have hx' := Mem.keep_reads hx
      rw [hl] at hx'
      exact inpl_wrote (Unicode.uses_swap_endianness_inplace (L := fun _ => True) (W := fun _ => True) (d := ⟨p, n⟩) trivial trivial t i)
        (Unicode.swap_inplace_any hr hl hx') (Nat.le_of_eq (Unicode.swapB_length _ (by cases t <;> decide) hl))

/-- C78: calls of the slice functions made at the same time by any number of threads on the same machine. If the arguments are as safe Rust guarantees, in particular what one thread borrows
with `&mut` is borrowed by no other, then under every schedule there is no data race, no undefined behaviour and no deadlock, and every call returns what it returns when it is
the only one and leaves the same bytes in its destination; nothing outside the destinations changes. Sources may be shared. -/
theorem C78_calls (M : Machine) {k : Nat} {α : Fin k → Type} (c : (t : Fin k) → Call (α t)) (m : Mem) (hr : ∀ t, (c t).RunsOn M) (hb : ∀ t, (c t).Borrows M.P m)
    (hd : ∀ t u, t ≠ u → Spec.NoOverlap (c t).exclusive.1 (c t).exclusive.2 (c u).shared.1 (c u).shared.2 ∧
      Spec.NoOverlap (c t).exclusive.1 (c t).exclusive.2 (c u).exclusive.1 (c u).exclusive.2) :
    Spec.Isolated (fun t => (c t).prog M.P) m (fun t => Spec.In (c t).exclusive.1 (c t).exclusive.2) := by
  have hf := fun t => (c t).fine M m (hr t) (hb t)
  have key : ∀ {p q : Ptr} {a b : Nat}, Spec.NoOverlap p a q b → ∀ {x i}, Spec.In p a x i → ¬ Spec.In q b x i := by
    rintro p q a b h x i ⟨rfl, h1, h2⟩ ⟨h3, h4, h5⟩
    exact h (i - p.off) (i - q.off) (by omega) (by omega) ⟨h3, by omega⟩
  exact isolated (fun t => (hf t).noalloc) (fun t => (hf t).safe) (fun t => (hf t).inside) fun t u htu b i hw h =>
    h.elim (fun h => h.elim (key (hd t u htu).1 hw) (key (hd t u htu).2 hw)) (key (hd t u htu).2 hw)

/-- C78 for base64 texts: any number of threads encode, with any variants and from sources that may overlap, into destinations of their own. Once all threads have ended, each has returned the
number of bytes of its text and its destination holds the text. -/
theorem C78_encode (M : Machine) {k : Nat} (i : Option Isa) (hi : M.Runs base64_encode i) (config : Fin k → Base64.Config) (url pad : Fin k → Bool)
    (hv : ∀ t, Base64.IsVariant (config t) (url t) (pad t)) (m : Mem) (p q : Fin k → Ptr) (xs : Fin k → List Byte) (d : Fin k → Nat)
    (hr : ∀ t, Spec.Reads m (p t) (xs t)) (hw : ∀ t, Spec.Writable m (q t) (d t)) (hx : ∀ t, (xs t).length ≤ M.P.isizeMax) (hdm : ∀ t, d t ≤ M.P.isizeMax)
    (hl : ∀ t, (Spec.base64 (url t) (pad t) (xs t)).length ≤ d t) (hpq : ∀ t u, Spec.NoOverlap (p u) (xs u).length (q t) (d t)) (hqq : ∀ t u, t ≠ u → Spec.NoOverlap (q t) (d t) (q u) (d u))
    {n : Nat} {c : Threads k (fun _ => Slice)} (hs : Threads.Steps n ⟨fun t => Base64.encode M.P i (config t) ⟨p t, (xs t).length⟩ ⟨q t, d t⟩, m⟩ c)
    (he : ∀ t, (c.thread t).ended = true) (t : Fin k) :
    c.thread t = .pure ⟨q t, (Spec.base64 (url t) (pad t) (xs t)).length⟩ ∧ Spec.Reads c.mem (q t) (Spec.base64 (url t) (pad t) (xs t)) := by
  have hI := C78_calls M (fun t => .base64Encode i (config t) ⟨p t, (xs t).length⟩ ⟨q t, d t⟩) m (fun t => ⟨hi, _, _, hv t⟩)
    (fun t => ⟨⟨xs t, rfl, hr t⟩, hw t, hx t, hdm t, hpq t t⟩)
    (fun t u htu => ⟨(hpq t u).symm, hqq t u htu⟩)
  obtain ⟨N, hN⟩ := hI
  obtain ⟨-, -, -, -, h⟩ := hN n c hs
  obtain ⟨h1, h2, h3, -⟩ := h he
  have h1 := h1 t
  obtain ⟨m', hm, hm'⟩ := Base64.C59_encode M.P (Runs.ne_sse2 hi (by decide)) (hv t) m (p t) (q t) (xs t) (d t) (hr t) (hw t) (hpq t t) (hx t) (hl t)
  simp only [Call.prog, hm, Spec.EndedLike, Call.exclusive] at h1
  refine ⟨h1.1, ?_, fun j hj => ?_⟩
  · have := hw t; have := hl t; unfold Spec.Writable at *; rw [h3]; omega
  · have := hl t
    rw [h1.2 _ _ ⟨rfl, by omega, by omega⟩]; exact hm'.2.2.1 j hj

/-! ### Examples -/

/-- Three threads with the memory `twoMem`: one decodes `QUJD`, one tests the beginning of the source's allocation for ASCII, one writes two bytes of the
source in hexadecimal to the bytes that follow the source. -/
def threeTy : Fin 3 → Type
  | 0 => Slice
  | 1 => Bool
  | 2 => Slice
def threeCalls : (t : Fin 3) → Call (threeTy t)
  | 0 => .base64Decode (some .avx2) Base64.STANDARD ⟨⟨0, 2⟩, 4⟩ ⟨⟨1, 3⟩, 4⟩
  | 1 => .isAscii true (some .avx2) ⟨⟨0, 0⟩, 6⟩
  | 2 => .hexEncode (some .avx2) .lower ⟨⟨0, 2⟩, 2⟩ ⟨⟨0, 6⟩, 4⟩

theorem reads_two (o n : Nat) (h : o + n ≤ 16) : ∃ xs : List Byte, xs.length = n ∧ Spec.Reads twoMem ⟨0, o⟩ xs := by
  refine ⟨(List.range n).map fun i => ([0x7a#8, 0x7a#8, 0x51#8, 0x55#8, 0x4a#8, 0x44#8].getD (o + i) 0x7a#8), by simp, ?_, fun i hi => ?_⟩
  · simpa [twoMem] using h
  · simp [twoMem]

example : Spec.Isolated (fun t => (threeCalls t).prog sender.P) twoMem (fun t => Spec.In (threeCalls t).exclusive.1 (threeCalls t).exclusive.2) := by
  refine C78_calls sender threeCalls twoMem ?_ ?_ ?_
  · intro t
    match t with
    | 0 => exact ⟨runs_first _ _ _ (by decide) (by decide), false, true, .inl ⟨rfl, rfl, rfl⟩⟩
    | 1 => exact (runs_first _ _ _ (by decide) (by decide) : Dispatch.Runs sender.build sender.cpu unicode_is_ascii _)
    | 2 => exact (runs_first _ _ _ (by decide) (by decide) : Dispatch.Runs sender.build sender.cpu hex_encode _)
  · have hP : 16 ≤ sender.P.isizeMax := by decide
    intro t
    match t with
    | 0 => exact ⟨reads_two 2 4 (by decide), show 3 + 4 ≤ 16 by decide, Nat.le_trans (by decide) hP, Nat.le_trans (by decide) hP, noOverlap_of_ne (show (0 : Nat) ≠ 1 by decide) _ _⟩
    | 1 => exact ⟨reads_two 0 6 (by decide), show 0 + 0 ≤ 16 by decide, Nat.le_trans (by decide) hP, Nat.le_trans (by decide) hP, trivial⟩
    | 2 => exact ⟨reads_two 2 2 (by decide), show 6 + 4 ≤ 16 by decide, Nat.le_trans (by decide) hP, Nat.le_trans (by decide) hP,
        fun i j hi hj h => by simp only [threeCalls, Call.shared, Call.exclusive] at hi hj h; omega⟩
  · intro t u h
    match t, u with
    | 0, 0 | 1, 1 | 2, 2 => exact absurd rfl h
    | 0, 1 | 0, 2 | 1, 0 | 1, 2 | 2, 0 | 2, 1 =>
      constructor <;> intro i j hi hj h <;> simp only [threeCalls, Call.shared, Call.exclusive] at hi hj h <;> omega

/-- Two threads that write the same byte race, and the order decides what is left. -/
example : Spec.DataRace (storeBytes ⟨1, 3⟩ [0x41#8]) (storeBytes ⟨1, 3⟩ [0x42#8]) ∧
    ¬ Spec.Isolated (k := 2) (α := fun _ => Unit) (fun t => storeBytes ⟨1, 3⟩ [if t = 0 then 0x41#8 else 0x42#8]) twoMem (fun _ => Spec.In ⟨1, 3⟩ 1) := by
  refine ⟨⟨⟨1, 3⟩, 1, .store ⟨1, 3⟩ 1, 1, 3, rfl, rfl, ⟨rfl, by decide, by decide⟩, rfl, by decide, by decide⟩, fun ⟨N, h⟩ => ?_⟩
  obtain ⟨-, -, h, -⟩ := h 0 _ (.refl _)
  exact h 0 1 (by decide) ⟨⟨1, 3⟩, 1, .store ⟨1, 3⟩ 1, 1, 3, rfl, rfl, ⟨rfl, by decide, by decide⟩, rfl, by decide, by decide⟩

end Simd
