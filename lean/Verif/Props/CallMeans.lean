import Verif.Lemmas.CallMeans
/-
C90: what every function on slices computes, for all of them in one theorem.
-/
namespace Simd
open Spec Dispatch

theorem Base64.decoded_le {config url pad} (hv : Base64.IsVariant config url pad) (ys : List Byte) : ys.length ≤ (base64 url pad ys).length :=
  (Base64.decApi (i := none) (by simp) config).full_le ((hv.full _ ys).2 rfl)

theorem Base32.decoded_le {config hex pad} (hv : Base32.IsVariant config hex pad) (ys : List Byte) : ys.length ≤ (base32 hex pad ys).length :=
  (Base32.decApi false (i := none) (Base32.impl_none) (j := none) (by simp) config).full_le ((hv.full _ ys).2 rfl)

theorem Uuid.isUuid_length {xs u : List Byte} (h : IsUuid xs u) : u.length = 16 := by
  rcases h with h | h | ⟨t, -, h⟩ | ⟨t, -, h⟩ <;> exact h.1

/-- The call ends with bytes. -/
theorem computes_ok {α : Type} {c : Call α} {m m' : Mem} {xs ys : List Byte} {o : Out α} {r : α} (h : o = .ok r m') (h1 : CallMeans xs c.exclusive.2 (some ys) c) (h2 : CallReturns xs ys c r)
    (h3 : ys.length ≤ c.exclusive.2 ∧ Reads m' c.exclusive.1 ys ∧ OnlyChanged m m' c.exclusive.1 (touched xs c.exclusive.2 (some ys) c)) : Computes c m xs o := by
  subst h
  exact ⟨some ys, h1, ys, rfl, h2, h3⟩

/-- The call ends with an error. -/
theorem computes_err {α : Type} {c : Call α} {m m' : Mem} {xs : List Byte} {o : Out α} (h : o = .err m') (h1 : CallMeans xs c.exclusive.2 none c)
    (h3 : OnlyChanged m m' c.exclusive.1 (touched xs c.exclusive.2 none c)) : Computes c m xs o := by
  subst h
  exact ⟨none, h1, rfl, h3⟩

theorem fits_pos {d : Nat} {t : List Byte} (h : t.length ≤ d) : fits d t = some t := if_pos h
theorem fits_neg {d : Nat} {t : List Byte} (h : ¬ t.length ≤ d) : fits d t = none := if_neg h

/-- C90: every call of a function on slices, with arguments as safe Rust guarantees them, on any machine with any implementation that the machine may be given, ends with the bytes or the error
that `CallMeans` says, which depends on nothing but the bytes of the input and the length of the destination; the bytes are at the start of the destination and nothing else has changed. A byte swap to
a shorter slice panics, as documented. -/
theorem C90_call (M : Machine) {α : Type} (c : Call α) (m : Mem) (hr : c.RunsOn M) (hb : c.Borrows M.P m) {xs : List Byte} (hl : xs.length = (input c).2) (hx : Reads m (input c).1 xs) :
    Computes c m xs ((c.prog M.P).run m) := by
  have hu := isizeMax_le M.P
  obtain ⟨-, hw, hP, hP', hb⟩ := hb
  cases c with
  | base64Encode i config src dst =>
    obtain ⟨hi, url, pad, hv⟩ := hr
    have hi := Runs.ne_sse2 hi (by decide)
    obtain ⟨p, _⟩ := src; obtain ⟨q, d⟩ := dst
    dsimp only [Call.shared, Call.exclusive, input] at *; subst hl
    by_cases h : (base64 url pad xs).length ≤ d
    · obtain ⟨m', h1, h2⟩ := Base64.C59_encode M.P hi hv m p q xs d hx hw hb hP h
      exact computes_ok h1 ⟨url, pad, hv, (fits_pos h).symm⟩ rfl (h2.done hw h)
    · exact computes_err (Base64.C59_encode_short M.P hi hv m p q xs d hP (by omega)) ⟨url, pad, hv, (fits_neg h).symm⟩ (.refl _ _ _)
  | base64Decode i config src dst =>
    obtain ⟨hi, url, pad, hv⟩ := hr
    have hi := Runs.ne_sse2 hi (by decide)
    obtain ⟨p, _⟩ := src; obtain ⟨q, d⟩ := dst
    dsimp only [Call.shared, Call.exclusive, input] at *; subst hl
    by_cases h : ∃ ys, base64 url pad ys = xs
    · obtain ⟨ys, rfl⟩ := h
      have := Base64.C59_decode hi hv m p q ys d hx hw hb
      by_cases h : ys.length ≤ d
      · obtain ⟨m', h1, h2⟩ := this.1 h
        exact computes_ok h1 ⟨url, pad, hv, some ys, rfl, (fits_pos h).symm⟩ rfl (h2.done hw h)
      · exact computes_err (this.2 (by omega)) ⟨url, pad, hv, some ys, rfl, (fits_neg h).symm⟩ (.refl _ _ _)
    · obtain ⟨m', h1, h2⟩ := Base64.C59_decode_err hi hv m p q xs d hx hw hb h
      exact computes_err h1 ⟨url, pad, hv, none, h, rfl⟩ h2
  | base64Inplace i config data =>
    obtain ⟨hi, url, pad, hv⟩ := hr
    have hi := Runs.ne_sse2 hi (by decide)
    obtain ⟨p, _⟩ := data
    dsimp only [Call.shared, Call.exclusive, input] at *; subst hl
    have := Base64.C59_inplace hi hv m p xs hx
    by_cases h : ∃ ys, base64 url pad ys = xs
    · obtain ⟨ys, h⟩ := h
      obtain ⟨m', h1, h2⟩ := this.1 ys h
      exact computes_ok h1 ⟨url, pad, hv, h⟩ rfl (h2.done hw (h ▸ Base64.decoded_le hv ys))
    · obtain ⟨m', h1, h2⟩ := this.2 h
      exact computes_err h1 ⟨url, pad, hv, h⟩ h2
  | base64Check i config data =>
    obtain ⟨hi, url, pad, hv⟩ := hr
    have hi := Runs.ne_sse2 hi (by decide)
    obtain ⟨p, _⟩ := data
    dsimp only [Call.shared, Call.exclusive, input] at *; subst hl
    have := Base64.C59_check hi hv m p xs hx
    by_cases h : ∃ ys, base64 url pad ys = xs
    · obtain ⟨ys, h'⟩ := id h
      exact computes_ok (this.1 h) ⟨url, pad, hv, some ys, h', rfl⟩ trivial hw.nothing
    · exact computes_err (this.2 h) ⟨url, pad, hv, none, h, rfl⟩ (.refl _ _ _)
  | forgiving fi di src dst =>
    have hi := Runs.ne_sse2 hr.2 (by decide)
    obtain ⟨p, _⟩ := src; obtain ⟨q, d⟩ := dst
    dsimp only [Call.shared, Call.exclusive, input] at *; subst hl
    by_cases hd : xs.length ≤ d
    · have := Base64.C59_forgiving fi hi m p q xs d hx hw hd hb
      have e : ∀ res, touched xs d res (.forgiving fi di ⟨p, xs.length⟩ ⟨q, d⟩) = xs.length := fun _ => if_pos hd
      cases h : forgivingDecode xs with
      | some ys =>
        obtain ⟨m', h1, h2, h3⟩ := this.1 ys h
        exact computes_ok h1 ((if_pos hd).trans h).symm rfl ⟨Nat.le_trans (forgiving_le h) hd, h2, (e (some ys)).symm ▸ h3⟩
      | none =>
        obtain ⟨m', h1, h2⟩ := this.2 h
        exact computes_err h1 ((if_pos hd).trans h).symm ((e none).symm ▸ h2)
    · exact computes_err (Base64.forgiving_short fi di p q m hd).1 (if_neg hd).symm (.refl _ _ _)
  | forgivingInplace fi di data =>
    have hi := Runs.ne_sse2 hr.2 (by decide)
    obtain ⟨p, _⟩ := data
    dsimp only [Call.shared, Call.exclusive, input] at *; subst hl
    have := Base64.C59_forgiving_inplace fi hi m p xs hx
    cases h : forgivingDecode xs with
    | some ys =>
      obtain ⟨m', h1, h2, h3⟩ := this.1 ys h
      exact computes_ok h1 h.symm rfl ⟨forgiving_le h, h2, h3⟩
    | none =>
      obtain ⟨m', h1, h2⟩ := this.2 h
      exact computes_err h1 h.symm h2
  | base32Encode w i config src dst =>
    obtain ⟨rfl, hi, hex, pad, hv⟩ := hr
    have hi := Base32.impl_of_runs hi (by decide) (by decide)
    obtain ⟨p, _⟩ := src; obtain ⟨q, d⟩ := dst
    dsimp only [Call.shared, Call.exclusive, input] at *; subst hl
    by_cases h : (base32 hex pad xs).length ≤ d
    · obtain ⟨m', h1, h2⟩ := Base32.C59_encode M.P M.wasm hi hv m p q xs d hx hw hb hP h
      exact computes_ok h1 ⟨hex, pad, hv, (fits_pos h).symm⟩ rfl (h2.done hw h)
    · exact computes_err (Base32.C59_encode_short M.P M.wasm hi hv m p q xs d hP (by omega)) ⟨hex, pad, hv, (fits_neg h).symm⟩ (.refl _ _ _)
  | base32Decode w i config src dst =>
    obtain ⟨rfl, hi, hex, pad, hv⟩ := hr
    have hi := Base32.impl_of_runs hi (by decide) (by decide)
    obtain ⟨p, _⟩ := src; obtain ⟨q, d⟩ := dst
    dsimp only [Call.shared, Call.exclusive, input] at *; subst hl
    by_cases h : ∃ ys, base32 hex pad ys = xs
    · obtain ⟨ys, rfl⟩ := h
      have := Base32.C59_decode M.wasm hi hv m p q ys d hx hw hb
      by_cases h : ys.length ≤ d
      · obtain ⟨m', h1, h2⟩ := this.1 h
        exact computes_ok h1 ⟨hex, pad, hv, some ys, rfl, (fits_pos h).symm⟩ rfl (h2.done hw h)
      · exact computes_err (this.2 (by omega)) ⟨hex, pad, hv, some ys, rfl, (fits_neg h).symm⟩ (.refl _ _ _)
    · obtain ⟨m', h1, h2⟩ := Base32.C59_decode_err M.wasm hi hv m p q xs d hx hw hb h
      exact computes_err h1 ⟨hex, pad, hv, none, h, rfl⟩ h2
  | base32Inplace w i config data =>
    obtain ⟨rfl, hi, hex, pad, hv⟩ := hr
    have hi := Base32.impl_of_runs hi (by decide) (by decide)
    obtain ⟨p, _⟩ := data
    dsimp only [Call.shared, Call.exclusive, input] at *; subst hl
    have := Base32.C59_inplace M.wasm hi hv m p xs hx
    by_cases h : ∃ ys, base32 hex pad ys = xs
    · obtain ⟨ys, h⟩ := h
      obtain ⟨m', h1, h2⟩ := this.1 ys h
      exact computes_ok h1 ⟨hex, pad, hv, h⟩ rfl (h2.done hw (h ▸ Base32.decoded_le hv ys))
    · obtain ⟨m', h1, h2⟩ := this.2 h
      exact computes_err h1 ⟨hex, pad, hv, h⟩ h2
  | base32Check i config data =>
    obtain ⟨hi, hex, pad, hv⟩ := hr
    have hi := Runs.ne_sse2 hi (by decide)
    obtain ⟨p, _⟩ := data
    dsimp only [Call.shared, Call.exclusive, input] at *; subst hl
    have := Base32.C59_check hi hv m p xs hx
    by_cases h : ∃ ys, base32 hex pad ys = xs
    · obtain ⟨ys, h'⟩ := id h
      exact computes_ok (this.1 h) ⟨hex, pad, hv, some ys, h', rfl⟩ trivial hw.nothing
    · exact computes_err (this.2 h) ⟨hex, pad, hv, none, h, rfl⟩ (.refl _ _ _)
  | hexEncode i case src dst =>
    obtain ⟨p, _⟩ := src; obtain ⟨q, d⟩ := dst
    dsimp only [Call.shared, Call.exclusive, input] at *; subst hl
    have := Hex.C59_encode M.P i case m p q xs d hx hw (by omega) hb
    have hlen := Hex.hexEncode_length (case == .upper) xs
    by_cases h : 2 * xs.length ≤ d
    · obtain ⟨m', h1, h2⟩ := this.1 h
      exact computes_ok h1 (fits_pos (d := d) (by omega)).symm (by show _ = Slice.mk _ _; rw [hlen]) (h2.done hw (by dsimp only [Call.exclusive]; omega))
    · exact computes_err (this.2 (by omega)) (fits_neg (d := d) (by omega)).symm (.refl _ _ _)
  | hexDecode i src dst =>
    obtain ⟨p, _⟩ := src; obtain ⟨q, d⟩ := dst
    dsimp only [Call.shared, Call.exclusive, input] at *; subst hl
    obtain ⟨a1, a2, a3⟩ := Hex.C59_decode i m p q xs d hx hw hb
    by_cases h : ∃ ys, IsHexOf xs ys
    · obtain ⟨ys, h⟩ := h
      by_cases hd : ys.length ≤ d
      · obtain ⟨m', h1, h2⟩ := a1 ys h hd
        exact computes_ok h1 ⟨some ys, h, (fits_pos hd).symm⟩ rfl (h2.done hw hd)
      · exact computes_err (a2 ys h (by omega)) ⟨some ys, h, (fits_neg hd).symm⟩ (.refl _ _ _)
    · by_cases hd : xs.length / 2 ≤ d
      · obtain ⟨m', h1, h2⟩ := a3 h
        exact computes_err h1 ⟨none, h, rfl⟩ (h2.mono hd)
      · refine computes_err (m' := m) ?_ ⟨none, h, rfl⟩ (.refl _ _ _)
        dsimp only [Call.prog]
        unfold Hex.decode
        exact run_ensure_false (by simp; omega)
  | hexInplace i data =>
    obtain ⟨p, _⟩ := data
    dsimp only [Call.shared, Call.exclusive, input] at *; subst hl
    have := Hex.C59_inplace i m p xs hx
    by_cases h : ∃ ys, IsHexOf xs ys
    · obtain ⟨ys, h⟩ := h
      obtain ⟨m', h1, h2⟩ := this.1 ys h
      have := Hex.isHexOf_length h
      exact computes_ok h1 h rfl (h2.done hw (by dsimp only [Call.exclusive]; omega))
    · obtain ⟨m', h1, h2⟩ := this.2 h
      exact computes_err h1 h (h2.mono (by show xs.length / 2 ≤ xs.length; omega))
  | hexCheck i data =>
    obtain ⟨p, _⟩ := data
    dsimp only [Call.shared, Call.exclusive, input] at *; subst hl
    have : (Hex.check i ⟨p, xs.length⟩).run m = _ := Hex.C58_check_raw i m p xs hx
    split at this
    · rename_i h; exact computes_ok this (if_pos h).symm trivial hw.nothing
    · rename_i h; exact computes_err this (if_neg h).symm (.refl _ _ _)
  | uuidParse si hi src q =>
    have hh : Uuid.HypImpl hi := ⟨Runs.ne_sse2 hr.2 (by decide), Runs.ne_ssse3 hr.2 (by decide)⟩
    obtain ⟨p, _⟩ := src
    dsimp only [Call.shared, Call.exclusive, input] at *; subst hl
    obtain ⟨a1, a2⟩ := Uuid.C60_parse si hh m p q xs hx hw hb
    by_cases h : ∃ u, IsUuid xs u
    · obtain ⟨u, h⟩ := h
      obtain ⟨m', h1, h2⟩ := a1 u h
      have hlen := Uuid.isUuid_length h
      exact computes_ok h1 h (by show _ = Slice.mk _ _; rw [hlen]) (h2.done hw (by dsimp only [Call.exclusive]; omega))
    · obtain ⟨m', h1, h2⟩ := a2 h
      exact computes_err h1 h h2
  | uuidParseSimple i src q =>
    obtain ⟨p, _⟩ := src
    dsimp only [Call.shared, Call.exclusive, input] at *; subst hl
    obtain ⟨a1, a2⟩ := Uuid.C60_parse_simple i m p q xs hx hw hb
    by_cases h : ∃ u, IsUuidSimple xs u
    · obtain ⟨u, h⟩ := h
      obtain ⟨m', h1, h2⟩ := a1 u h
      have hlen := h.1
      exact computes_ok h1 h (by show _ = Slice.mk _ _; rw [hlen]) (h2.done hw (by dsimp only [Call.exclusive]; omega))
    · obtain ⟨m', h1, h2⟩ := a2 h
      exact computes_err h1 h h2
  | uuidParseHyphenated i src q =>
    have hh : Uuid.HypImpl i := ⟨Runs.ne_sse2 hr (by decide), Runs.ne_ssse3 hr (by decide)⟩
    obtain ⟨p, _⟩ := src
    dsimp only [Call.shared, Call.exclusive, input] at *; subst hl
    obtain ⟨a1, a2⟩ := Uuid.C60_parse_hyphenated hh m p q xs hx hw hb
    by_cases h : ∃ u, IsUuidHyphenated xs u
    · obtain ⟨u, h⟩ := h
      obtain ⟨m', h1, h2⟩ := a1 u h
      have hlen := h.1
      exact computes_ok h1 h (by show _ = Slice.mk _ _; rw [hlen]) (h2.done hw (by dsimp only [Call.exclusive]; omega))
    · obtain ⟨m', h1, h2⟩ := a2 h
      exact computes_err h1 h h2
  | uuidFormatSimple i case p q =>
    dsimp only [Call.shared, Call.exclusive, input] at *
    obtain ⟨m', h1, h2⟩ := Uuid.C60_format_simple i case m p q xs hl hx hw hb
    have hlen : (uuidSimple (case == .upper) xs).length = 32 := by rw [uuidSimple, Hex.hexEncode_length, hl]
    exact computes_ok h1 rfl (by show _ = Slice.mk _ _; rw [hlen]) (h2.done hw (by dsimp only [Call.exclusive]; omega))
  | uuidFormatHyphenated i case p q =>
    have hh : Uuid.HypImpl i := ⟨Runs.ne_sse2 hr (by decide), Runs.ne_ssse3 hr (by decide)⟩
    dsimp only [Call.shared, Call.exclusive, input] at *
    obtain ⟨m', h1, h2⟩ := Uuid.C60_format_hyphenated hh case m p q xs hl hx hw hb
    have hlen : (uuidHyphenated (case == .upper) xs).length = 36 := by
      simp only [uuidHyphenated, List.length_append, Hex.hexEncode_length, List.length_take, List.length_drop, List.length_cons, List.length_nil, hl]; omega
    exact computes_ok h1 rfl (by show _ = Slice.mk _ _; rw [hlen]) (h2.done hw (by dsimp only [Call.exclusive]; omega))
  | isAscii x64 i data =>
    obtain ⟨p, _⟩ := data
    dsimp only [Call.shared, Call.exclusive, input] at *; subst hl
    exact computes_ok (Unicode.C60_is_ascii x64 i m p xs hx) rfl (by show decide _ = true ↔ _; exact decide_eq_true_iff) hw.nothing
  | isUtf32le i data =>
    have hi : i ≠ some .sse2 ∧ i ≠ some .ssse3 := ⟨Runs.ne_sse2 hr (by decide), Runs.ne_ssse3 hr (by decide)⟩
    obtain ⟨p, n⟩ := data
    dsimp only [Call.shared, Call.exclusive, input] at *
    exact computes_ok (Unicode.is_utf32le_tests hi hx.has hl).run rfl (scalarsOk_iff hl) hw.nothing
  | swap t i src dst =>
    obtain ⟨p, n⟩ := src; obtain ⟨q, d⟩ := dst
    dsimp only [Call.shared, Call.exclusive, input] at *
    have hrev := swapB_reversed (by cases t <;> decide) hl
    by_cases hd : n ≤ d
    case neg =>
      refine ⟨some _, ⟨_, rfl, hrev⟩, ?_⟩
      have := (Unicode.swap_short t i p q m hd).1
      dsimp only [Call.prog]
      rw [this]
      show d < n
      omega
    have hle : t.size * n ≤ t.size * d := Nat.mul_le_mul_left _ hd
    obtain ⟨m', h1, h2⟩ := Unicode.swap_any hr hl hx hw hb hd
    have hlen := hrev.1
    exact computes_ok h1 ⟨_, rfl, hrev⟩ ⟨rfl, by rw [hlen, hl]⟩ (h2.done hw (by dsimp only [Call.exclusive]; omega))
  | swapInplace t i data =>
    obtain ⟨p, n⟩ := data
    dsimp only [Call.shared, Call.exclusive, input] at *
    have hrev := swapB_reversed (by cases t <;> decide) hl
    obtain ⟨m', h1, h2⟩ := Unicode.swap_inplace_any hr hl hx
    have hlen := hrev.1
    exact computes_ok h1 ⟨_, rfl, hrev⟩ trivial (h2.done hw (by dsimp only [Call.exclusive]; omega))

/-- C90: a function has one meaning. The same call on two machines, with whatever implementations, memories and places, with the same bytes and as much room: both end with bytes, and those are the same; or
both with an error; or both panic. -/
theorem C90_portable (M M' : Machine) {α : Type} (c c' : Call α) (hf : function c = function c') (m m' : Mem) (hr : c.RunsOn M) (hr' : c'.RunsOn M') (hb : c.Borrows M.P m) (hb' : c'.Borrows M'.P m')
    {xs : List Byte} (hl : xs.length = (input c).2) (hl' : xs.length = (input c').2) (hx : Reads m (input c).1 xs) (hx' : Reads m' (input c').1 xs) (hd : c.exclusive.2 = c'.exclusive.2) :
    match (c.prog M.P).run m, (c'.prog M'.P).run m' with
    | .ok r m1, .ok r' m1' => ∃ ys, Reads m1 c.exclusive.1 ys ∧ Reads m1' c'.exclusive.1 ys ∧ CallReturns xs ys c r ∧ CallReturns xs ys c' r'
    | .err _, .err _ => True
    | .panic, .panic => True
    | _, _ => False := by
  have h := C90_call M c m hr hb hl hx
  have h' := C90_call M' c' m' hr' hb' hl' hx'
  obtain ⟨res, h1, h2⟩ := h
  obtain ⟨res', h1', h2'⟩ := h'
  have e : res = res' := by
    have h3 := (means_function c _ _ _).1 h1
    rw [hf, hd] at h3
    exact Spec.CallMeans.unique ((means_function c' _ _ _).2 h3) h1'
  subst e
  have same : ShortSwap c ↔ ShortSwap c' := by
    rw [shortSwap_iff, shortSwap_iff, ← isSwap_function c, hf, isSwap_function, ← hd, ← hl, ← hl']
  have short : ∀ {ys}, res = some ys → ys.length ≤ c.exclusive.2 → ¬ ShortSwap c := fun {ys} e hle hs => by
    rw [shortSwap_iff] at hs
    obtain ⟨zs, e', h3⟩ := means_swap hs.1 h1
    rw [e] at e'; cases e'
    omega
  have none_short : res = none → ¬ ShortSwap c := fun e hs => by
    rw [shortSwap_iff] at hs
    obtain ⟨zs, e', h3⟩ := means_swap hs.1 h1
    rw [e] at e'; cases e'
  split
  · rename_i r m1 r' m1' e e'
    rw [e] at h2; rw [e'] at h2'
    obtain ⟨ys, rfl, a1, -, a2, -⟩ := h2
    obtain ⟨ys', e2, b1, -, b2, -⟩ := h2'
    cases e2
    exact ⟨ys, a2, b2, a1, b1⟩
  · trivial
  · trivial
  · rename_i n1 n2 n3
    revert h2 h2' n1 n2 n3
    generalize (c.prog M.P).run m = o, (c'.prog M'.P).run m' = o'
    intro h2 h2' n1 n2 n3
    cases o with
    | ub => exact h2
    | ok r m1 =>
      obtain ⟨ys, rfl, -, hle, -⟩ := h2
      cases o' with
      | ok r' m1' => exact n1 _ _ _ _ rfl rfl
      | err m1' => cases h2'.1
      | panic => exact short rfl hle (same.2 h2')
      | ub => exact h2'
    | err m1 =>
      obtain ⟨rfl, -⟩ := h2
      cases o' with
      | ok r' m1' => obtain ⟨_, e, _⟩ := h2'; cases e
      | err m1' => exact n2 _ _ rfl rfl
      | panic => exact none_short rfl (same.2 h2')
      | ub => exact h2'
    | panic =>
      cases o' with
      | ok r' m1' =>
        obtain ⟨ys, rfl, -, hle, -⟩ := h2'
        exact short rfl (hd ▸ hle) h2
      | err m1' =>
        obtain ⟨rfl, -⟩ := h2'
        exact none_short rfl h2
      | panic => exact n3 rfl rfl
      | ub => exact h2'

/-- `hex_simd::encode` of the six bytes at the start of the first allocation of `twoMem`, to the second. -/
def hexCall (i : Option Isa) : Call Slice := .hexEncode i .lower ⟨⟨0, 0⟩, 6⟩ ⟨⟨1, 0⟩, 12⟩

/-- The hypotheses of `C90_call` and `C90_portable` are met: a 64-bit machine with AVX2 and a wasm32 machine. -/
example : (hexCall (some .avx2)).RunsOn sender ∧ (hexCall (some .wasm128)).RunsOn receiver ∧ function (hexCall (some .avx2)) = function (hexCall (some .wasm128)) ∧
    (hexCall (some .avx2)).Borrows sender.P twoMem ∧ (hexCall (some .wasm128)).Borrows receiver.P twoMem ∧
    Reads twoMem (input (hexCall none)).1 [0x7a#8, 0x7a#8, 0x51#8, 0x55#8, 0x4a#8, 0x44#8] ∧
    CallMeans [0x7a#8, 0x7a#8, 0x51#8, 0x55#8, 0x4a#8, 0x44#8] 12 (some [0x37#8, 0x61#8, 0x37#8, 0x61#8, 0x35#8, 0x31#8, 0x35#8, 0x35#8, 0x34#8, 0x61#8, 0x34#8, 0x34#8]) (hexCall none) := by
  have hx : Reads twoMem ⟨0, 0⟩ [0x7a#8, 0x7a#8, 0x51#8, 0x55#8, 0x4a#8, 0x44#8] := ⟨by decide, fun i hi => by
    have : i = 0 ∨ i = 1 ∨ i = 2 ∨ i = 3 ∨ i = 4 ∨ i = 5 := by simp at hi; omega
    rcases this with rfl | rfl | rfl | rfl | rfl | rfl <;> rfl⟩
  have hb : ∀ P i, 12 ≤ P.isizeMax → (hexCall i).Borrows P twoMem := fun P i h =>
    ⟨⟨_, rfl, hx⟩, by show 0 + 12 ≤ 16; omega, by show 6 ≤ _; omega, by show 12 ≤ _; omega, noOverlap_of_ne (show (0 : Nat) ≠ 1 by decide) _ _⟩
  refine ⟨show sender.Runs Dispatch.hex_encode _ from Dispatch.runs_first _ _ _ (by decide) (by decide), ?_, rfl, hb _ _ (by decide), hb _ _ (by decide), hx, by show _ = _; decide⟩
  show receiver.Runs _ _
  unfold Machine.Runs Dispatch.Runs
  rw [if_pos (by decide)]
  exact (show Dispatch.auto_direct receiver.build Dispatch.hex_encode = some .wasm128 by decide).symm

end Simd
