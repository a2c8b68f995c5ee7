import Verif.Props.AnywhereHeap
/-
C61 without assumptions on the capacity: exactly when the appending decoders and `forgiving_decode_to_vec` panic.
-/
namespace Simd

/-- Appending `n` bytes to `v` needs no reallocation, or one of at most `isize::MAX` bytes. -/
def Spec.CanGrow (P : Plat) (extra : Nat) (v : RVec) (n : Nat) : Prop := n ≤ v.cap - v.len ∨ v.len + n + extra ≤ P.isizeMax

theorem Spec.CanGrow.mono {P : Plat} {extra : Nat} {v : RVec} {n k : Nat} (h : Spec.CanGrow P extra v n) (hk : k ≤ n) : Spec.CanGrow P extra v k := by
  unfold Spec.CanGrow at *; omega

theorem reserve_panic {P : Plat} {extra n : Nat} {v : RVec} (h : ¬ Spec.CanGrow P extra v n) : v.reserve_exact P extra n = .panic := by
  unfold Spec.CanGrow at h
  unfold RVec.reserve_exact
  rw [if_neg (by omega), if_neg (by omega)]

theorem DecApi.append_panic (A : DecApi) (P : Plat) (extra : Nat) {m : Mem} {p : Ptr} {xs : List Byte} {v : RVec} (hx : HasBytes m p xs) {n k : Nat}
    (hd : A.dlen xs = some (n, k)) (h : ¬ Spec.CanGrow P extra v k) : (A.append P extra ⟨p, xs.length⟩ v).run m = .panic := by
  have hne : xs ≠ [] := by
    rintro rfl
    rw [A.hnil] at hd; cases hd
    exact h (.inl (Nat.zero_le _))
  have hpos : 0 < xs.length := List.length_pos_iff.2 hne
  unfold append
  simp only
  rw [if_neg (by omega), run_bind, run_attempt, A.hD _ _ _ hx, hd]
  simp only [reserve_panic h]
  rfl

theorem DecApi.append_all (A : DecApi) (P : Plat) (extra : Nat) {m : Mem} {p : Ptr} {xs prev : List Byte} {v : RVec} (hx : HasBytes m p xs) (hp : p.buf < m.nbuf)
    (hv : Spec.IsVec m v prev) (h0 : p.buf ≠ v.buf) (hc : v.cap ≤ P.isizeMax) :
    (∀ ys, A.full xs = some ys →
      (Spec.CanGrow P extra v ys.length → ∃ v' m', (A.append P extra ⟨p, xs.length⟩ v).run m = .ok (v', .ok ()) m' ∧ Spec.IsVec m' v' (prev ++ ys) ∧
        Spec.Grown P ys.length m v m' v') ∧
      (¬ Spec.CanGrow P extra v ys.length → (A.append P extra ⟨p, xs.length⟩ v).run m = .panic)) ∧
    (A.full xs = none →
      (∃ v' m', (A.append P extra ⟨p, xs.length⟩ v).run m = .ok (v', .error ()) m' ∧ Spec.IsVec m' v' prev ∧ Spec.Grown P xs.length m v m' v') ∨
      ((A.append P extra ⟨p, xs.length⟩ v).run m = .panic ∧ ¬ Spec.CanGrow P extra v xs.length)) := by
  refine ⟨fun ys hy => ?_, fun hn => ?_⟩
  · obtain ⟨n, hd, -⟩ := A.dlen_of_full hy
    refine ⟨fun h => (A.append_any_out P extra hx hp hv h0 hc (fun n' k' hd' => ?_)).1 ys hy, fun h => A.append_panic P extra hx hd h⟩
    rw [hd] at hd'; cases hd'
    exact h
  · by_cases h : ∃ n k, A.dlen xs = some (n, k) ∧ ¬ Spec.CanGrow P extra v k
    · obtain ⟨n, k, hd, h⟩ := h
      exact .inr ⟨A.append_panic P extra hx hd h, fun h' => h (h'.mono (A.hle _ _ _ hd).1)⟩
    · refine .inl ((A.append_any_out P extra hx hp hv h0 hc (fun n k hd => ?_)).2 hn)
      by_contra hh
      exact h ⟨n, k, hd, hh⟩

namespace Base64

/-- C61, `decode_append` of base64-simd for any vector and any source: on a valid text it appends the decoded bytes, or panics exactly when the vector cannot grow to hold them; on an invalid
text it fails with the old content, or panics when the vector could not grow by the length of the text. -/
theorem C61_decode_append_any (P : Plat) (extra : Nat) {i : Option Isa} (hi : i ≠ some .sse2) {config url pad} (hv : IsVariant config url pad)
    (m : Mem) (p : Ptr) (xs : List Byte) (hr : Spec.Reads m p xs) (hp : p.buf < m.nbuf)
    (v : RVec) (prev : List Byte) (hvec : Spec.IsVec m v prev) (hne : p.buf ≠ v.buf) (hc : v.cap ≤ P.isizeMax) :
    (∀ ys, Spec.base64 url pad ys = xs →
      (Spec.CanGrow P extra v ys.length → ∃ v' m', (decode_append P extra i config ⟨p, xs.length⟩ v).run m = .ok (v', .ok ()) m' ∧
        Spec.IsVec m' v' (prev ++ ys) ∧ Spec.Grown P ys.length m v m' v') ∧
      (¬ Spec.CanGrow P extra v ys.length → (decode_append P extra i config ⟨p, xs.length⟩ v).run m = .panic)) ∧
    ((¬ ∃ ys, Spec.base64 url pad ys = xs) →
      (∃ v' m', (decode_append P extra i config ⟨p, xs.length⟩ v).run m = .ok (v', .error ()) m' ∧ Spec.IsVec m' v' prev ∧ Spec.Grown P xs.length m v m' v') ∨
      ((decode_append P extra i config ⟨p, xs.length⟩ v).run m = .panic ∧ ¬ Spec.CanGrow P extra v xs.length)) := by
  have h := (decApi hi config).append_all P extra hr.has hp hvec hne hc
  exact ⟨fun ys hy => h.1 ys ((hv.full xs ys).2 hy), fun hn => h.2 ((hv.full_none xs).2 hn)⟩

/-- C61, `forgiving_decode_to_vec` for any source: it panics exactly when the source contains ASCII whitespace and is too long for a vector of its length. -/
theorem C61_forgiving_any (P : Plat) (extra : Nat) (fi : Option Isa) {di : Option Isa} (hd : di ≠ some .sse2) (m : Mem) (p : Ptr) (xs : List Byte)
    (hr : Spec.Reads m p xs) (hp : p.buf < m.nbuf) (hx : xs.length ≤ P.isizeMax) :
    ((∃ x ∈ xs, Spec.isWs x = true) ∧ P.isizeMax < xs.length + extra → (forgiving_decode_to_vec P extra fi di ⟨p, xs.length⟩).run m = .panic) ∧
    (¬ ((∃ x ∈ xs, Spec.isWs x = true) ∧ P.isizeMax < xs.length + extra) →
      (∀ ys, Spec.forgivingDecode xs = some ys → ∃ v m', (forgiving_decode_to_vec P extra fi di ⟨p, xs.length⟩).run m = .ok v m' ∧
        Spec.NewVec m m' v ys ∧ Spec.Kept m m') ∧
      (Spec.forgivingDecode xs = none → ∃ m', (forgiving_decode_to_vec P extra fi di ⟨p, xs.length⟩).run m = .err m' ∧ Spec.Kept m m')) := by
  have hb := hr.has
  have hws : (∃ x ∈ xs, Spec.isWs x = true) ↔ firstWs xs ≠ xs.length := by
    unfold firstWs
    rw [Ne, List.findIdx_eq_length]
    constructor
    · rintro ⟨x, h1, h2⟩ h; exact absurd h2 (by simp [h x h1])
    · intro h; by_contra hn; exact h fun x hx => by
        by_contra h'
        exact hn ⟨x, hx, by simpa using h'⟩
  have hfind : (find_non_ascii_whitespace fi ⟨p, xs.length⟩).run m = .ok (firstWs xs) m := by
    have : wp (find_non_ascii_whitespace fi ⟨p, xs.length⟩) (fun r m' => r = firstWs xs ∧ m' = m) (fun _ => False) m := find_wp fi hb ⟨rfl, rfl⟩
    rcases wp_out this with ⟨r, m', h, rfl, rfl⟩ | ⟨_, _, h⟩
    · exact h
    · exact h.elim
  have hrun : (forgiving_decode_to_vec P extra fi di ⟨p, xs.length⟩).run m = (if firstWs xs = xs.length then decode_to_vec P di STANDARD_FORGIVING ⟨p, xs.length⟩ else do
      let v ← vec_with_capacity P extra xs.length
      let ans ← copy_and_decode di ⟨p, xs.length⟩ (firstWs xs) ⟨v.buf, 0⟩
      v.set_len ans.len : Prog RVec).run m := by
    unfold forgiving_decode_to_vec
    rw [run_bind, hfind]
    simp only
    rw [show (assert (decide (firstWs xs ≤ xs.length)) : Prog Unit) = pure () by rw [decide_eq_true (firstWs_le xs)]; rfl, prog_pure_bind]
  refine ⟨fun ⟨h1, h2⟩ => ?_, fun h => ?_⟩
  · rw [hrun, if_neg (hws.1 h1)]
    unfold vec_with_capacity
    rw [if_neg (by omega)]; rfl
  · by_cases h1 : firstWs xs = xs.length
    · rw [hrun, if_pos h1]
      have e : (decApi hd STANDARD_FORGIVING).full xs = Spec.forgivingDecode xs := by rw [full_eq, ← full_strip, stripWs_none h1]
      have ht := (decApi hd STANDARD_FORGIVING).toVec_any_out P hb hp hx
      rw [e] at ht
      exact ht
    · exact C61_forgiving P extra fi hd m p xs hr hp (by by_contra hh; exact h ⟨hws.2 h1, by omega⟩)

end Base64

namespace Base32

/-- C61, `decode_append` of base32-simd for any vector and any source. -/
theorem C61_decode_append_any (P : Plat) (w : Bool) (extra : Nat) {i : Option Isa} (hi : Impl i) {config hex pad} (hv : IsVariant config hex pad)
    (m : Mem) (p : Ptr) (xs : List Byte) (hr : Spec.Reads m p xs) (hp : p.buf < m.nbuf)
    (v : RVec) (prev : List Byte) (hvec : Spec.IsVec m v prev) (hne : p.buf ≠ v.buf) (hc : v.cap ≤ P.isizeMax) :
    (∀ ys, Spec.base32 hex pad ys = xs →
      (Spec.CanGrow P extra v ys.length → ∃ v' m', (decode_append P w extra i config ⟨p, xs.length⟩ v).run m = .ok (v', .ok ()) m' ∧
        Spec.IsVec m' v' (prev ++ ys) ∧ Spec.Grown P ys.length m v m' v') ∧
      (¬ Spec.CanGrow P extra v ys.length → (decode_append P w extra i config ⟨p, xs.length⟩ v).run m = .panic)) ∧
    ((¬ ∃ ys, Spec.base32 hex pad ys = xs) →
      (∃ v' m', (decode_append P w extra i config ⟨p, xs.length⟩ v).run m = .ok (v', .error ()) m' ∧ Spec.IsVec m' v' prev ∧ Spec.Grown P xs.length m v m' v') ∨
      ((decode_append P w extra i config ⟨p, xs.length⟩ v).run m = .panic ∧ ¬ Spec.CanGrow P extra v xs.length)) := by
  have h := (decApi w hi (j := none) (by simp) config).append_all P extra hr.has hp hvec hne hc
  exact ⟨fun ys hy => h.1 ys ((hv.full xs ys).2 hy), fun hn => h.2 ((hv.full_none xs).2 hn)⟩

end Base32

namespace Hex

/-- C61, `decode_append` of hex-simd for any vector and any source: it panics exactly when the text has even length and the vector cannot grow by half of it. -/
theorem C61_decode_append_any (P : Plat) (extra : Nat) (i : Option Isa) (m : Mem) (p : Ptr) (xs : List Byte) (hr : Spec.Reads m p xs) (hp : p.buf < m.nbuf)
    (v : RVec) (prev : List Byte) (hvec : Spec.IsVec m v prev) (hne : p.buf ≠ v.buf) (hc : v.cap ≤ P.isizeMax) :
    (xs.length % 2 = 0 ∧ ¬ Spec.CanGrow P extra v (xs.length / 2) → (decode_append P extra i ⟨p, xs.length⟩ v).run m = .panic) ∧
    (¬ (xs.length % 2 = 0 ∧ ¬ Spec.CanGrow P extra v (xs.length / 2)) →
      (∀ ys, Spec.IsHexOf xs ys → ∃ v' m', (decode_append P extra i ⟨p, xs.length⟩ v).run m = .ok (v', .ok ()) m' ∧
        Spec.IsVec m' v' (prev ++ ys) ∧ Spec.Grown P ys.length m v m' v') ∧
      ((¬ ∃ ys, Spec.IsHexOf xs ys) → ∃ v' m', (decode_append P extra i ⟨p, xs.length⟩ v).run m = .ok (v', .error ()) m' ∧
        Spec.IsVec m' v' prev ∧ Spec.Grown P xs.length m v m' v')) := by
  refine ⟨fun ⟨he, h⟩ => ?_, fun h => ?_⟩
  · have hpos : 0 < xs.length := by
      rcases Nat.eq_zero_or_pos xs.length with h0 | h0
      · rw [h0] at h; exact absurd (.inl (Nat.zero_le _)) h
      · exact h0
    unfold decode_append decode_append_vec
    simp only
    rw [if_neg (by omega), if_pos he]
    simp only [reserve_panic h]
    rfl
  · by_cases he : xs.length % 2 = 0
    · exact C61_decode_append P extra i m p xs hr hp v prev hvec hne hc (by by_contra hh; exact h ⟨he, hh⟩)
    · have hpos : 0 < xs.length := by omega
      have : (decode_append P extra i ⟨p, xs.length⟩ v).run m = .ok (v, .error ()) m := by
        unfold decode_append decode_append_vec
        simp only
        rw [if_neg (by omega), if_neg he]; rfl
      refine ⟨fun ys hy => ?_, fun _ => ⟨v, m, this, hvec, .refl P _ m v⟩⟩
      have := isHexOf_length hy
      omega

end Hex

/-! ### Examples -/

/-- `4142` and an empty vector of capacity one. -/
def textAndVec : Mem := Mem.ofBufs [[some 0x34#8, some 0x31#8, some 0x34#8, some 0x32#8], [none]]

theorem textAndVec_reads : Spec.Reads textAndVec ⟨0, 0⟩ [0x34#8, 0x31#8, 0x34#8, 0x32#8] :=
  ⟨by decide, fun i hi => by
    have hi : i < 4 := hi
    match i, hi with
    | 0, _ | 1, _ | 2, _ | 3, _ => rfl⟩
theorem textAndVec_vec : Spec.IsVec textAndVec ⟨1, 0, 1⟩ [] := ⟨by decide, by decide, rfl, by decide, fun i hi => absurd hi (Nat.not_lt_zero _)⟩

/-- If the allocator cannot give two bytes the call panics. -/
example (i : Option Isa) : (Hex.decode_append ⟨64, by decide⟩ (2 ^ 63) i ⟨⟨0, 0⟩, 4⟩ ⟨1, 0, 1⟩).run textAndVec = .panic :=
  (Hex.C61_decode_append_any ⟨64, by decide⟩ (2 ^ 63) i textAndVec ⟨0, 0⟩ _ textAndVec_reads (by decide) ⟨1, 0, 1⟩ [] textAndVec_vec (by decide) (by decide)).1
    ⟨by decide, fun h => by rcases h with h | h <;> revert h <;> decide⟩

/-- Otherwise the vector moves. -/
example (i : Option Isa) : ∃ v' m', (Hex.decode_append ⟨64, by decide⟩ 5 i ⟨⟨0, 0⟩, 4⟩ ⟨1, 0, 1⟩).run textAndVec = .ok (v', .ok ()) m' ∧ Spec.IsVec m' v' [0x41#8, 0x42#8] := by
  obtain ⟨v', m', h1, h2, -⟩ := ((Hex.C61_decode_append_any ⟨64, by decide⟩ 5 i textAndVec ⟨0, 0⟩ _ textAndVec_reads (by decide) ⟨1, 0, 1⟩ [] textAndVec_vec (by decide) (by decide)).2
    (fun h => h.2 (.inr (by decide)))).1 [0x41#8, 0x42#8] (by unfold Spec.IsHexOf; decide)
  exact ⟨v', m', h1, h2⟩

/-- A text with a blank for which no vector of its length can be allocated. -/
example (fi : Option Isa) : (Base64.forgiving_decode_to_vec ⟨64, by decide⟩ (2 ^ 63) fi none ⟨⟨0, 0⟩, 2⟩).run (Mem.ofBufs [[some 0x20#8, some 0x41#8]]) = .panic :=
  (Base64.C61_forgiving_any ⟨64, by decide⟩ (2 ^ 63) fi (di := none) (by decide) _ ⟨0, 0⟩ [0x20#8, 0x41#8] ⟨by decide, fun i hi => by
    have hi : i < 2 := hi
    match i, hi with
    | 0, _ | 1, _ => rfl⟩ (by decide) (by decide)).1 ⟨⟨0x20#8, by decide, by decide⟩, by decide⟩

end Simd
