import Verif.Lemmas.Allocs
import Verif.Props.Scripts
import Verif.Props.ConcurrentAlloc
/-
C82: how many heap allocations each function makes, and of what sizes.
-/
namespace Simd
open Dispatch

/-- C82, the functions on slices: no allocation, in any memory. -/
theorem C82_slices (P : Plat) {α : Type} (c : Call α) (m : Mem) : (c.prog P).allocs m = [] := (c.noalloc P).allocs m

theorem wrap_allocs {α β : Type} {x : Prog α} {f : α → β} {m : Mem} : (do let s ← x; pure (f s) : Prog β).allocs m = x.allocs m :=
  allocs_then fun _ => Uses.ret_true

namespace Base64

/-- C82, `encode_type` of base64-simd: one allocation, of the size of the text; none for an empty input or if the call panics because the text is too long. -/
theorem C82_encode (P : Plat) {i : Option Isa} (hi : i ≠ some .sse2) {config url pad} (hv : IsVariant config url pad) (m : Mem) (p : Ptr) (xs : List Byte)
    (hx : xs.length ≤ P.isizeMax) (ty : EncodeTy) :
    (encode_type P i config ⟨p, xs.length⟩ ty).allocs m =
      if (Spec.base64 url pad xs).length ≤ P.usizeMax / 2 then Spec.fresh (Spec.base64 url pad xs).length else [] := by
  have h := (encApi hi config).boxed_allocs P (fun _ _ _ => uses_encode_auto trivial trivial _ _ _) p xs (hv.fits P hx) m
  rw [← hv.text]
  cases ty <;> exact wrap_allocs.trans h

theorem decLen_bound (n : Nat) : 4 * decLen n ≤ 3 * n := by
  unfold decLen
  split_ifs <;> omega

/-- C82, `decode_type` of base64-simd: for a valid text one allocation, of the size of the decoded bytes; for any other text at most one, of at most three bytes for
every four characters. -/
theorem C82_decode (P : Plat) {i : Option Isa} (hi : i ≠ some .sse2) {config url pad} (hv : IsVariant config url pad) (m : Mem) (p : Ptr) (xs : List Byte)
    (hr : Spec.Reads m p xs) (hx : xs.length ≤ P.isizeMax) (ty : DecodeTy) :
    (∀ ys, Spec.base64 url pad ys = xs → (decode_type P i config ⟨p, xs.length⟩ ty).allocs m = Spec.fresh ys.length) ∧
    ((¬ ∃ ys, Spec.base64 url pad ys = xs) → (decode_type P i config ⟨p, xs.length⟩ ty).allocs m = [] ∨
      ∃ k, 0 < k ∧ 4 * k ≤ 3 * xs.length ∧ (decode_type P i config ⟨p, xs.length⟩ ty).allocs m = [k]) := by
  have h := (decApi hi config).boxed_allocs P (fun _ => uses_decoded_length trivial _) (fun _ _ _ => uses_decode_auto trivial trivial _ _ _) hr.has hx
  have e : (decode_type P i config ⟨p, xs.length⟩ ty).allocs m = ((decApi hi config).boxed P ⟨p, xs.length⟩).allocs m := by
    cases ty <;> exact wrap_allocs
  rw [e]
  refine ⟨fun ys hy => ?_, fun _ => ?_⟩
  · obtain ⟨n, hn, -⟩ := (decApi hi config).dlen_of_full ((hv.full xs ys).2 hy)
    exact h.1 n _ hn
  · cases hd : (decApi hi config).dlen xs with
    | none => exact .inl (h.2 hd)
    | some r =>
      obtain ⟨n, k⟩ := r
      rw [h.1 n k hd]
      obtain ⟨-, rfl, h2, -, -⟩ := dlen_some hd
      have := decLen_bound n
      unfold Spec.fresh
      split
      · exact .inl rfl
      · exact .inr ⟨_, by omega, by omega, rfl⟩

/-- C82, `encode_append` of base64-simd: no allocation if the text fits into the spare capacity, else one. -/
theorem C82_encode_append (P : Plat) (extra : Nat) {i : Option Isa} (hi : i ≠ some .sse2) {config url pad} (hv : IsVariant config url pad) (m : Mem) (p : Ptr)
    (xs : List Byte) (hx : xs.length ≤ P.isizeMax) (v : RVec) (prev : List Byte) (hvec : Spec.IsVec m v prev) :
    (encode_append P extra i config ⟨p, xs.length⟩ v).allocs m =
      if (Spec.base64 url pad xs).length ≤ P.usizeMax / 2 then Spec.grow P extra v (Spec.base64 url pad xs).length else [] := by
  rw [← hv.text]
  exact (encApi hi config).append_allocs P extra (fun _ _ _ => uses_encode_auto trivial trivial _ _ _) p xs (hv.fits P hx) hvec.is

/-- C82, `decode_append` of base64-simd: for a valid text no allocation if the bytes fit into the spare capacity, else one; for any other text none or what
room for at most three bytes for every four characters takes. -/
theorem C82_decode_append (P : Plat) (extra : Nat) {i : Option Isa} (hi : i ≠ some .sse2) {config url pad} (hv : IsVariant config url pad) (m : Mem) (p : Ptr)
    (xs : List Byte) (hr : Spec.Reads m p xs) (v : RVec) (prev : List Byte) (hvec : Spec.IsVec m v prev) :
    (∀ ys, Spec.base64 url pad ys = xs → (decode_append P extra i config ⟨p, xs.length⟩ v).allocs m = Spec.grow P extra v ys.length) ∧
    ((¬ ∃ ys, Spec.base64 url pad ys = xs) → (decode_append P extra i config ⟨p, xs.length⟩ v).allocs m = [] ∨
      ∃ k, 4 * k ≤ 3 * xs.length ∧ (decode_append P extra i config ⟨p, xs.length⟩ v).allocs m = Spec.grow P extra v k) := by
  have h := (decApi hi config).append_allocs P extra (fun _ => uses_decoded_length trivial _) (fun _ _ _ => uses_decode_auto trivial trivial _ _ _) hr.has hvec.is
  refine ⟨fun ys hy => ?_, fun _ => ?_⟩
  · obtain ⟨n, hn, -⟩ := (decApi hi config).dlen_of_full ((hv.full xs ys).2 hy)
    exact h.1 n _ hn
  · cases hd : (decApi hi config).dlen xs with
    | none => exact .inl (h.2 hd)
    | some r =>
      obtain ⟨n, k⟩ := r
      obtain ⟨-, rfl, h2, -, -⟩ := dlen_some hd
      have := decLen_bound n
      exact .inr ⟨_, by omega, h.1 n _ hd⟩

theorem uses_copy_and_decode {L W : Nat → Prop} {src : Slice} {dst : Ptr} (hp : L src.ptr.buf) (hp' : L dst.buf) (hq : W dst.buf) (di pos) :
    Uses' L W (copy_and_decode di src pos dst) := by
  unfold copy_and_decode copy_nonoverlapping
  uses [uses_remove_ascii_whitespace_fallback, uses_decode_inplace] []

/-- C82, `forgiving_decode_to_vec`: with whitespace in the text one allocation of the size of the text (and what the allocator adds), else one of the size of the
decoded bytes, if the text is valid, and at most one if it is not. -/
theorem C82_forgiving (P : Plat) (extra : Nat) (fi : Option Isa) {di : Option Isa} (hd : di ≠ some .sse2) (m : Mem) (p : Ptr) (xs : List Byte)
    (hr : Spec.Reads m p xs) (hx : xs.length ≤ P.isizeMax) :
    ((∃ c ∈ xs, Spec.isWs c = true) →
      (forgiving_decode_to_vec P extra fi di ⟨p, xs.length⟩).allocs m = if xs.length + extra ≤ P.isizeMax then [xs.length + extra] else []) ∧
    ((∀ c ∈ xs, Spec.isWs c = false) →
      (∀ ys, Spec.forgivingDecode xs = some ys → (forgiving_decode_to_vec P extra fi di ⟨p, xs.length⟩).allocs m = Spec.fresh ys.length) ∧
      (Spec.forgivingDecode xs = none → (forgiving_decode_to_vec P extra fi di ⟨p, xs.length⟩).allocs m = [] ∨
        ∃ k, 0 < k ∧ 4 * k ≤ 3 * xs.length ∧ (forgiving_decode_to_vec P extra fi di ⟨p, xs.length⟩).allocs m = [k])) := by
  have hb := hr.has
  have hf : (find_non_ascii_whitespace fi ⟨p, xs.length⟩).run m = .ok (firstWs xs) m := by
    rcases wp_out (find_wp fi (E := fun _ => False) (Q := fun k m' => k = firstWs xs ∧ m' = m) hb ⟨rfl, rfl⟩) with ⟨_, _, h, rfl, rfl⟩ | ⟨_, _, h⟩
    · exact h
    · exact h.elim
  have e : (forgiving_decode_to_vec P extra fi di ⟨p, xs.length⟩).allocs m =
      if firstWs xs = xs.length then (decode_to_vec P di STANDARD_FORGIVING ⟨p, xs.length⟩).allocs m
      else if xs.length + extra ≤ P.isizeMax then [xs.length + extra] else [] := by
    unfold forgiving_decode_to_vec
    rw [allocs_seq (uses_find_non_ascii_whitespace trivial _) hf]
    have := firstWs_le xs
    show (assert (decide (firstWs xs ≤ xs.length)) >>= _ : Prog RVec).allocs m = _
    rw [decide_eq_true this]
    show (if firstWs xs = xs.length then _ else _ : Prog RVec).allocs m = _
    by_cases h : firstWs xs = xs.length
    · rw [if_pos h, if_pos h]
    · rw [if_neg h, if_neg h]
      rw [allocs_then fun _ => ?_]
      · unfold vec_with_capacity
        split
        · simp only [Prog.allocs]
          rw [if_neg (by omega)]
        · rfl
      · refine Uses.seq ?_ fun _ => noalloc_set_len _ _
        exact uses_copy_and_decode trivial trivial trivial _ _
  have hws : firstWs xs = xs.length ↔ ∀ c ∈ xs, Spec.isWs c = false := by
    unfold firstWs
    rw [List.findIdx_eq_length]
  rw [e]
  refine ⟨fun ⟨c, hc, hw⟩ => ?_, fun hn => ?_⟩
  · rw [if_neg fun h => by rw [hws.1 h c hc] at hw; cases hw]
  · rw [if_pos (hws.2 hn)]
    have h := (decApi hd STANDARD_FORGIVING).boxed_allocs P (fun _ => uses_decoded_length trivial _) (fun _ _ _ => uses_decode_auto trivial trivial _ _ _) hb hx
    have e2 : (decode_to_vec P di STANDARD_FORGIVING ⟨p, xs.length⟩).allocs m = ((decApi hd STANDARD_FORGIVING).boxed P ⟨p, xs.length⟩).allocs m :=
      wrap_allocs
    have e3 : (decApi hd STANDARD_FORGIVING).full xs = Spec.forgivingDecode xs := by rw [full_eq, ← full_strip, stripWs_none (hws.2 hn)]
    rw [e2]
    refine ⟨fun ys hy => ?_, fun _ => ?_⟩
    · obtain ⟨n, hn, -⟩ := (decApi hd STANDARD_FORGIVING).dlen_of_full (e3.trans hy)
      exact h.1 n _ hn
    · cases hd' : (decApi hd STANDARD_FORGIVING).dlen xs with
      | none => exact .inl (h.2 hd')
      | some r =>
        obtain ⟨n, k⟩ := r
        rw [h.1 n k hd']
        obtain ⟨-, rfl, h2, -, -⟩ := dlen_some hd'
        have := decLen_bound n
        unfold Spec.fresh
        split
        · exact .inl rfl
        · exact .inr ⟨_, by omega, by omega, rfl⟩

end Base64

namespace Base32

/-- C82, `encode_type` of base32-simd. -/
theorem C82_encode (P : Plat) (w : Bool) {i : Option Isa} (hi : Impl i) {config hex pad} (hv : IsVariant config hex pad) (m : Mem) (p : Ptr) (xs : List Byte)
    (hx : xs.length ≤ P.isizeMax) (ty : EncodeTy) :
    (encode_type P w i config ⟨p, xs.length⟩ ty).allocs m =
      if (Spec.base32 hex pad xs).length ≤ P.usizeMax / 2 then Spec.fresh (Spec.base32 hex pad xs).length else [] := by
  have h := (encApi w hi config).boxed_allocs P (fun _ _ _ => uses_encode_auto trivial trivial _ _ _ _ _) p xs (hv.fits P hx) m
  rw [← hv.text]
  cases ty <;> exact wrap_allocs.trans h

theorem decLen_bound (n : Nat) : 8 * decLen n ≤ 5 * n := by
  unfold decLen
  split_ifs <;> omega

/-- C82, `decode_type` of base32-simd: for a valid text one allocation, of the size of the decoded bytes; for any other text at most one, of at most five bytes for
every eight characters. -/
theorem C82_decode (P : Plat) (w : Bool) {i : Option Isa} (hi : Impl i) {config hex pad} (hv : IsVariant config hex pad) (m : Mem) (p : Ptr) (xs : List Byte)
    (hr : Spec.Reads m p xs) (hx : xs.length ≤ P.isizeMax) (ty : DecodeTy) :
    (∀ ys, Spec.base32 hex pad ys = xs → (decode_type P w i config ⟨p, xs.length⟩ ty).allocs m = Spec.fresh ys.length) ∧
    ((¬ ∃ ys, Spec.base32 hex pad ys = xs) → (decode_type P w i config ⟨p, xs.length⟩ ty).allocs m = [] ∨
      ∃ k, 0 < k ∧ 8 * k ≤ 5 * xs.length ∧ (decode_type P w i config ⟨p, xs.length⟩ ty).allocs m = [k]) := by
  have h := (decApi w hi (j := none) (by simp) config).boxed_allocs P (fun _ => uses_decoded_length trivial _)
    (fun _ _ _ => uses_decode_auto trivial trivial _ _ _ _) hr.has hx
  have e : (decode_type P w i config ⟨p, xs.length⟩ ty).allocs m = ((decApi w hi (j := none) (by simp) config).boxed P ⟨p, xs.length⟩).allocs m := by
    cases ty <;> exact wrap_allocs
  rw [e]
  refine ⟨fun ys hy => ?_, fun _ => ?_⟩
  · obtain ⟨n, hn, -⟩ := (decApi w hi (j := none) (by simp) config).dlen_of_full ((hv.full xs ys).2 hy)
    exact h.1 n _ hn
  · cases hd : (decApi w hi (j := none) (by simp) config).dlen xs with
    | none => exact .inl (h.2 hd)
    | some r =>
      obtain ⟨n, k⟩ := r
      rw [h.1 n k hd]
      obtain ⟨-, rfl, h2, -, -⟩ := dlen_some hd
      have := decLen_bound n
      unfold Spec.fresh
      split
      · exact .inl rfl
      · exact .inr ⟨_, by omega, by omega, rfl⟩

/-- C82, `encode_append` of base32-simd. -/
theorem C82_encode_append (P : Plat) (w : Bool) (extra : Nat) {i : Option Isa} (hi : Impl i) {config hex pad} (hv : IsVariant config hex pad) (m : Mem) (p : Ptr)
    (xs : List Byte) (hx : xs.length ≤ P.isizeMax) (v : RVec) (prev : List Byte) (hvec : Spec.IsVec m v prev) :
    (encode_append P w extra i config ⟨p, xs.length⟩ v).allocs m =
      if (Spec.base32 hex pad xs).length ≤ P.usizeMax / 2 then Spec.grow P extra v (Spec.base32 hex pad xs).length else [] := by
  rw [← hv.text]
  exact (encApi w hi config).append_allocs P extra (fun _ _ _ => uses_encode_auto trivial trivial _ _ _ _ _) p xs (hv.fits P hx) hvec.is

/-- C82, `decode_append` of base32-simd. -/
theorem C82_decode_append (P : Plat) (w : Bool) (extra : Nat) {i : Option Isa} (hi : Impl i) {config hex pad} (hv : IsVariant config hex pad) (m : Mem) (p : Ptr)
    (xs : List Byte) (hr : Spec.Reads m p xs) (v : RVec) (prev : List Byte) (hvec : Spec.IsVec m v prev) :
    (∀ ys, Spec.base32 hex pad ys = xs → (decode_append P w extra i config ⟨p, xs.length⟩ v).allocs m = Spec.grow P extra v ys.length) ∧
    ((¬ ∃ ys, Spec.base32 hex pad ys = xs) → (decode_append P w extra i config ⟨p, xs.length⟩ v).allocs m = [] ∨
      ∃ k, 8 * k ≤ 5 * xs.length ∧ (decode_append P w extra i config ⟨p, xs.length⟩ v).allocs m = Spec.grow P extra v k) := by
  have h := (decApi w hi (j := none) (by simp) config).append_allocs P extra (fun _ => uses_decoded_length trivial _)
    (fun _ _ _ => uses_decode_auto trivial trivial _ _ _ _) hr.has hvec.is
  refine ⟨fun ys hy => ?_, fun _ => ?_⟩
  · obtain ⟨n, hn, -⟩ := (decApi w hi (j := none) (by simp) config).dlen_of_full ((hv.full xs ys).2 hy)
    exact h.1 n _ hn
  · cases hd : (decApi w hi (j := none) (by simp) config).dlen xs with
    | none => exact .inl (h.2 hd)
    | some r =>
      obtain ⟨n, k⟩ := r
      obtain ⟨-, rfl, h2, -, -⟩ := dlen_some hd
      have := decLen_bound n
      exact .inr ⟨_, by omega, h.1 n _ hd⟩

end Base32

namespace Hex

/-- C82, `encode_type` of hex-simd: one allocation, of two bytes for every byte. -/
theorem C82_encode (P : Plat) (i : Option Isa) (case : AsciiCase) (m : Mem) (p : Ptr) (n : Nat) (hx : n ≤ P.isizeMax) (ty : EncodeTy) :
    (encode_type P i ⟨p, n⟩ case ty).allocs m = if 2 * n ≤ P.usizeMax / 2 then Spec.fresh (2 * n) else [] := by
  have hu := isizeMax_le P
  have hl : ((encApi i case).enc (List.replicate n 0)).length = 2 * n := by
    rw [(encApi i case).hlen, List.length_replicate]; rfl
  have h := (encApi i case).boxed_allocs P (fun _ _ _ => uses_encode_auto trivial trivial _ _ _) p (List.replicate n 0) (by rw [hl]; omega) m
  rw [hl, List.length_replicate] at h
  cases ty <;> exact wrap_allocs.trans h

/-- C82, `encode_append` of hex-simd. -/
theorem C82_encode_append (P : Plat) (extra : Nat) (i : Option Isa) (case : AsciiCase) (m : Mem) (p : Ptr) (n : Nat) (hx : n ≤ P.isizeMax) (v : RVec)
    (prev : List Byte) (hvec : Spec.IsVec m v prev) :
    (encode_append P extra i ⟨p, n⟩ v case).allocs m = if 2 * n ≤ P.usizeMax / 2 then Spec.grow P extra v (2 * n) else [] := by
  have hu := isizeMax_le P
  have hl : ((encApi i case).enc (List.replicate n 0)).length = 2 * n := by
    rw [(encApi i case).hlen, List.length_replicate]; rfl
  have h := (encApi i case).append_allocs P extra (fun _ _ _ => uses_encode_auto trivial trivial _ _ _) p (List.replicate n 0) (by rw [hl]; omega) hvec.is
  rw [hl, List.length_replicate] at h
  exact h

/-- C82, `decode_type` of hex-simd: one allocation, of one byte for every two characters, whether or not they are hexadecimal digits; none for an odd number. -/
theorem C82_decode (P : Plat) (i : Option Isa) (m : Mem) (p : Ptr) (n : Nat) (hx : n ≤ P.isizeMax) (ty : DecodeTy) :
    (decode_type P i ⟨p, n⟩ ty).allocs m = if n % 2 = 0 then Spec.fresh (n / 2) else [] := by
  have h : (decode_to_boxed_bytes P i ⟨p, n⟩).allocs m = if n % 2 = 0 then Spec.fresh (n / 2) else [] := by
    unfold decode_to_boxed_bytes
    by_cases h0 : n = 0
    · subst h0; rfl
    · simp only
      rw [if_neg h0]
      split <;> rename_i hc
      · rw [show (n % 2 == 0) = true by simpa using hc]
        exact box_allocs (body := fun q => decode_auto i p n q) (by omega) (by omega) (fun _ => uses_decode_auto trivial trivial _ _) m
      · rw [show (n % 2 == 0) = false by simpa using hc]; rfl
  cases ty <;> exact wrap_allocs.trans h

/-- C82, `decode_append` of hex-simd. -/
theorem C82_decode_append (P : Plat) (extra : Nat) (i : Option Isa) (m : Mem) (p : Ptr) (n : Nat) (v : RVec) (prev : List Byte) (hvec : Spec.IsVec m v prev) :
    (decode_append P extra i ⟨p, n⟩ v).allocs m = if n % 2 = 0 then Spec.grow P extra v (n / 2) else [] := by
  unfold decode_append decode_append_vec
  by_cases h0 : n = 0
  · subst h0; simp [Spec.grow, Prog.allocs, pure]
  · simp only
    rw [if_neg h0]
    split
    · rw [allocs_then fun _ => (Uses.padd _ _).seq fun _ => (Uses.attempt (uses_decode_auto trivial trivial _ _)).seq fun o => by
        cases o with
        | none => exact Uses.ret_true
        | some _ => exact (Uses.liftO _).seq fun _ => (noalloc_set_len _ _).seq fun _ => Uses.ret_true]
      exact reserve_allocs hvec.is (by omega)
    · rfl

end Hex

/-! ### Any call -/

/-- At most one allocation, which an allocator may be asked for. -/
def Spec.AtMostOne (P : Plat) (l : List Nat) : Prop := l = [] ∨ ∃ k, 0 < k ∧ k ≤ P.isizeMax ∧ l = [k]

theorem fresh_one {P : Plat} {n : Nat} (h : n ≤ P.isizeMax) : Spec.AtMostOne P (Spec.fresh n) := by
  unfold Spec.fresh
  split
  · exact .inl rfl
  · exact .inr ⟨n, by omega, h, rfl⟩

theorem grow_one (P : Plat) (extra : Nat) (v : RVec) (n : Nat) : Spec.AtMostOne P (Spec.grow P extra v n) := by
  unfold Spec.grow
  split_ifs
  · exact .inl rfl
  · exact .inr ⟨_, by omega, by assumption, rfl⟩
  · exact .inl rfl

theorem HeapCall.one (M : Machine) {α : Type} (c : HeapCall α) (m : Mem) (hr : c.RunsOn M) (hb : c.Borrows M.P m) :
    Spec.AtMostOne M.P ((c.prog M.P).allocs m) := by
  have hu := isizeMax_le M.P
  obtain ⟨⟨xs, hl, hx⟩, hn, hP, hv⟩ := hb
  have fr : ∀ n l, l = (if n ≤ M.P.usizeMax / 2 then Spec.fresh n else []) → Spec.AtMostOne M.P l := by
    rintro n l rfl
    split
    · exact fresh_one (by omega)
    · exact .inl rfl
  have gr : ∀ extra v n l, l = (if n ≤ M.P.usizeMax / 2 then Spec.grow M.P extra v n else []) → Spec.AtMostOne M.P l := by
    rintro extra v n l rfl
    split
    · exact grow_one ..
    · exact .inl rfl
  cases c with
  | base64Encode i config src ty =>
    obtain ⟨hi, url, pad, hc⟩ := hr
    obtain ⟨p, _⟩ := src
    dsimp only [shared] at *; subst hl
    exact fr _ _ (Base64.C82_encode M.P (Runs.ne_sse2 hi (by decide)) hc m p xs hP ty)
  | base64Decode i config src ty =>
    obtain ⟨hi, url, pad, hc⟩ := hr
    obtain ⟨p, _⟩ := src
    dsimp only [shared] at *; subst hl
    have h := Base64.C82_decode M.P (Runs.ne_sse2 hi (by decide)) hc m p xs hx hP ty
    dsimp only [prog]
    by_cases hh : ∃ ys, Spec.base64 url pad ys = xs
    · obtain ⟨ys, hy⟩ := hh
      rw [h.1 ys hy]
      refine fresh_one ?_
      have := congrArg List.length hy
      rw [Base64.base64_length] at this
      unfold Base64.encLen at this
      split_ifs at this <;> omega
    · rcases h.2 hh with h | ⟨k, h1, h2, h⟩
      · exact .inl h
      · exact .inr ⟨k, h1, by omega, h⟩
  | base64EncodeAppend extra i config src v =>
    obtain ⟨hi, url, pad, hc⟩ := hr
    obtain ⟨p, _⟩ := src
    obtain ⟨⟨prev, hv1⟩, hv2, hv3⟩ := hv v rfl
    dsimp only [shared] at *; subst hl
    exact gr _ _ _ _ (Base64.C82_encode_append M.P extra (Runs.ne_sse2 hi (by decide)) hc m p xs hP v prev hv1)
  | base64DecodeAppend extra i config src v =>
    obtain ⟨hi, url, pad, hc⟩ := hr
    obtain ⟨p, _⟩ := src
    obtain ⟨⟨prev, hv1⟩, hv2, hv3⟩ := hv v rfl
    dsimp only [shared] at *; subst hl
    have h := Base64.C82_decode_append M.P extra (Runs.ne_sse2 hi (by decide)) hc m p xs hx v prev hv1
    dsimp only [prog]
    by_cases hh : ∃ ys, Spec.base64 url pad ys = xs
    · obtain ⟨ys, hy⟩ := hh
      rw [h.1 ys hy]
      exact grow_one ..
    · rcases h.2 hh with h | ⟨k, -, h⟩
      · exact .inl h
      · rw [h]; exact grow_one ..
  | forgiving extra fi di src =>
    obtain ⟨p, _⟩ := src
    dsimp only [shared] at *; subst hl
    have h := Base64.C82_forgiving M.P extra fi (Runs.ne_sse2 hr.2 (by decide)) m p xs hx hP
    dsimp only [prog]
    by_cases hw : ∃ c ∈ xs, Spec.isWs c = true
    · rw [h.1 hw]
      obtain ⟨c, hc, -⟩ := hw
      have := List.length_pos_of_mem hc
      split
      · exact .inr ⟨_, by omega, by assumption, rfl⟩
      · exact .inl rfl
    · have h := h.2 fun c hc => by
        cases hh : Spec.isWs c
        · rfl
        · exact absurd ⟨c, hc, hh⟩ hw
      cases hf : Spec.forgivingDecode xs with
      | none =>
        rcases h.2 hf with h | ⟨k, h1, h2, h⟩
        · exact .inl h
        · exact .inr ⟨k, h1, by omega, h⟩
      | some ys =>
        rw [h.1 ys hf]
        refine fresh_one ?_
        have h1 := (Base64.decApi (Runs.ne_sse2 hr.2 (by decide)) Base64.STANDARD_FORGIVING).full_le ((Base64.full_strip xs).trans hf)
        have h2 := Base64.stripWs_length xs
        omega
  | base32Encode w i config src ty =>
    obtain ⟨-, hi, hex, pad, hc⟩ := hr
    obtain ⟨p, _⟩ := src
    dsimp only [shared] at *; subst hl
    exact fr _ _ (Base32.C82_encode M.P w (Base32.impl_of_runs hi (by decide) (by decide)) hc m p xs hP ty)
  | base32Decode w i config src ty =>
    obtain ⟨-, hi, hex, pad, hc⟩ := hr
    obtain ⟨p, _⟩ := src
    dsimp only [shared] at *; subst hl
    have h := Base32.C82_decode M.P w (Base32.impl_of_runs hi (by decide) (by decide)) hc m p xs hx hP ty
    dsimp only [prog]
    by_cases hh : ∃ ys, Spec.base32 hex pad ys = xs
    · obtain ⟨ys, hy⟩ := hh
      rw [h.1 ys hy]
      refine fresh_one ?_
      have := congrArg List.length hy
      rw [← hc.text, Base32.text_length] at this
      unfold Base32.encLen Base32.tailLen at this
      split_ifs at this <;> omega
    · rcases h.2 hh with h | ⟨k, h1, h2, h⟩
      · exact .inl h
      · exact .inr ⟨k, h1, by omega, h⟩
  | base32EncodeAppend w extra i config src v =>
    obtain ⟨-, hi, hex, pad, hc⟩ := hr
    obtain ⟨p, _⟩ := src
    obtain ⟨⟨prev, hv1⟩, hv2, hv3⟩ := hv v rfl
    dsimp only [shared] at *; subst hl
    exact gr _ _ _ _ (Base32.C82_encode_append M.P w extra (Base32.impl_of_runs hi (by decide) (by decide)) hc m p xs hP v prev hv1)
  | base32DecodeAppend w extra i config src v =>
    obtain ⟨-, hi, hex, pad, hc⟩ := hr
    obtain ⟨p, _⟩ := src
    obtain ⟨⟨prev, hv1⟩, hv2, hv3⟩ := hv v rfl
    dsimp only [shared] at *; subst hl
    have h := Base32.C82_decode_append M.P w extra (Base32.impl_of_runs hi (by decide) (by decide)) hc m p xs hx v prev hv1
    dsimp only [prog]
    by_cases hh : ∃ ys, Spec.base32 hex pad ys = xs
    · obtain ⟨ys, hy⟩ := hh
      rw [h.1 ys hy]
      exact grow_one ..
    · rcases h.2 hh with h | ⟨k, -, h⟩
      · exact .inl h
      · rw [h]; exact grow_one ..
  | hexEncode i case src ty =>
    obtain ⟨p, n⟩ := src
    dsimp only [shared] at *
    exact fr _ _ (Hex.C82_encode M.P i case m p n hP ty)
  | hexDecode i src ty =>
    obtain ⟨p, n⟩ := src
    dsimp only [shared] at *
    dsimp only [prog]
    rw [Hex.C82_decode M.P i m p n hP ty]
    split
    · exact fresh_one (by omega)
    · exact .inl rfl
  | hexEncodeAppend extra i case src v =>
    obtain ⟨p, n⟩ := src
    obtain ⟨⟨prev, hv1⟩, hv2, hv3⟩ := hv v rfl
    dsimp only [shared] at *
    exact gr _ _ _ _ (Hex.C82_encode_append M.P extra i case m p n hP v prev hv1)
  | hexDecodeAppend extra i src v =>
    obtain ⟨p, n⟩ := src
    obtain ⟨⟨prev, hv1⟩, hv2, hv3⟩ := hv v rfl
    dsimp only [prog]
    rw [Hex.C82_decode_append M.P extra i m p n v prev hv1]
    split
    · exact grow_one ..
    · exact .inl rfl

/-- C82, any safe call with any arguments: at most one allocation, of at most `isize::MAX` bytes. -/
theorem C82_any (M : Machine) {α : Type} (c : AnyCall α) (m : Mem) (hr : c.RunsOn M) (hb : c.Borrows M.P m) : Spec.AtMostOne M.P ((c.prog M.P).allocs m) := by
  cases c with
  | inl c => exact .inl (C82_slices M.P c m)
  | inr c => exact c.one M m hr hb

/-! Concrete calls: two bytes in the middle of an allocation; a vector of one byte with room for two more. -/

def allocsPlat : Plat := ⟨64, by omega⟩

theorem heapMem_reads : Spec.Reads heapMem ⟨0, 1⟩ [0x41#8, 0x42#8] := ⟨by decide, fun i h => by
  have : i = 0 ∨ i = 1 := by simp at h; omega
  rcases this with rfl | rfl <;> rfl⟩

theorem heapMem_vec : Spec.IsVec heapMem ⟨1, 1, 3⟩ [0x78#8] := ⟨by decide, by decide, by decide, by decide, fun i h => by
  have : i = 0 := by simp at h; omega
  subst this; rfl⟩

/-- The text `QUI=` in a string: one allocation of four bytes. -/
example (i : Option Isa) (hi : i ≠ some .sse2) : (Base64.encode_type allocsPlat i Base64.STANDARD ⟨⟨0, 1⟩, 2⟩ .string).allocs heapMem = [4] :=
  (Base64.C82_encode allocsPlat hi (url := false) (pad := true) (by unfold Base64.IsVariant; simp) heapMem ⟨0, 1⟩ [0x41#8, 0x42#8] (by decide) .string).trans
    (by decide)

/-- `AB` without padding is not the text of anything, but looks like one byte: the buffer is allocated before that is found. -/
example (i : Option Isa) (hi : i ≠ some .sse2) :
    (Base64.decode_append allocsPlat 5 i Base64.STANDARD_NO_PAD ⟨⟨0, 1⟩, 2⟩ ⟨1, 1, 3⟩).allocs heapMem = [] ∨
      ∃ k, 4 * k ≤ 3 * 2 ∧ (Base64.decode_append allocsPlat 5 i Base64.STANDARD_NO_PAD ⟨⟨0, 1⟩, 2⟩ ⟨1, 1, 3⟩).allocs heapMem = Spec.grow allocsPlat 5 ⟨1, 1, 3⟩ k :=
  (Base64.C82_decode_append allocsPlat 5 hi (url := false) (pad := false) (by unfold Base64.IsVariant; simp) heapMem ⟨0, 1⟩ [0x41#8, 0x42#8] heapMem_reads ⟨1, 1, 3⟩
    [0x78#8] heapMem_vec).2 fun ⟨ys, hy⟩ => by
      have h := congrArg List.length hy
      match ys with
      | [] => cases h
      | [a] => exact absurd hy (by revert a; decide +kernel)
      | [a, b] => rw [Base64.base64_length] at h; exact absurd h (by simp [Base64.encLen])
      | a :: b :: c :: r => simp [Base64.base64_length, Base64.encLen] at h; split at h <;> omega

/-- Four digits do not fit into the spare capacity of two: one allocation of 1 + 4 + 7 bytes; one byte does. -/
example (i : Option Isa) : (Hex.encode_append allocsPlat 7 i ⟨⟨0, 1⟩, 2⟩ ⟨1, 1, 3⟩ .lower).allocs heapMem = [12] ∧
    (Hex.decode_append allocsPlat 7 i ⟨⟨0, 1⟩, 2⟩ ⟨1, 1, 3⟩).allocs heapMem = [] :=
  ⟨(Hex.C82_encode_append allocsPlat 7 i .lower heapMem ⟨0, 1⟩ 2 (by decide) ⟨1, 1, 3⟩ _ heapMem_vec).trans (by decide),
    (Hex.C82_decode_append allocsPlat 7 i heapMem ⟨0, 1⟩ 2 ⟨1, 1, 3⟩ _ heapMem_vec).trans (by decide)⟩

end Simd
