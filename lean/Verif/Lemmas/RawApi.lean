import Verif.Lemmas.Forgiving
import Verif.Lemmas.Raw
/-
The public functions of the base64 and base32 crates on slices anywhere in any memory.
-/
namespace Simd

theorem Spec.NoOverlap.mono {p q : Ptr} {a b a' b' : Nat} (h : Spec.NoOverlap p a q b) (ha : a' ≤ a) (hb : b' ≤ b) :
    Spec.NoOverlap p a' q b' := fun i j hi hj => h i j (by omega) (by omega)

theorem Spec.NoOverlap.behind {p q : Ptr} {a b : Nat} (h : Spec.NoOverlap p a q b) (hb : a = 0 ∨ 0 < b) : Behind p q a := by
  unfold Behind
  rcases h.apart with h | h | h
  · omega
  · omega
  · unfold Apart at h; omega

namespace EncApi
variable (A : EncApi)

theorem elen_zero : A.elen 0 = 0 := by have := A.hlen []; rw [A.hnil] at this; exact this.symm

theorem encode_any_ok (P : Plat) {m : Mem} {p q : Ptr} {xs : List Byte} {d : Nat} (hr : Spec.Reads m p xs) (hw : Spec.Writable m q d)
    (hd : Spec.NoOverlap p xs.length q d) (h : (A.enc xs).length ≤ d) (hf : (A.enc xs).length ≤ P.usizeMax) :
    ∃ m', (A.encode P ⟨p, xs.length⟩ ⟨q, d⟩).run m = .ok ⟨q, (A.enc xs).length⟩ m' ∧ Spec.Wrote m m' q (A.enc xs) := by
  have hl := A.hlen xs
  rw [hl] at h hf ⊢
  have h0 := A.elen_zero
  have hp := A.hpos xs.length
  have ha : Apart p q xs.length (A.elen xs.length) := by
    rcases (hd.mono (Nat.le_refl _) h).apart with h | h | h
    · rw [h, h0]; unfold Apart; omega
    · unfold Apart; omega
    · exact h
  unfold Spec.Writable at hw
  have h1 := ((A.hbody m p q xs hr.has (by unfold CanWrite; omega) ha).ret (f := fun _ => (⟨q, A.elen xs.length⟩ : Slice))).raw_ok rfl
  unfold encode
  simp only
  rw [A.hL P _ hf]
  show ∃ m', (ensure (decide (d ≥ A.elen xs.length)) >>= _ : Prog Slice).run _ = _ ∧ _
  rw [decide_eq_true h]
  exact h1

theorem encode_any_err (P : Plat) {m : Mem} {p q : Ptr} {xs : List Byte} {d : Nat} (h : d < (A.enc xs).length) (hf : (A.enc xs).length ≤ P.usizeMax) :
    (A.encode P ⟨p, xs.length⟩ ⟨q, d⟩).run m = .err m := by
  have hl := A.hlen xs
  rw [hl] at h hf
  unfold encode
  simp only
  rw [A.hL P _ hf]
  exact run_ensure_false (by simp; omega)

end EncApi

namespace DecApi
variable (A : DecApi)

theorem decode_any_does {m : Mem} {p q : Ptr} {xs : List Byte} {d n k : Nat} (hr : Spec.Reads m p xs) (hw : Spec.Writable m q d)
    (hd : Spec.NoOverlap p xs.length q d) (h : A.dlen xs = some (n, k)) (hk : k ≤ d) :
    Does (A.decode ⟨p, xs.length⟩ ⟨q, d⟩) ⟨q, k⟩ A.full xs q k m := by
  have hle := A.hle xs n k h
  have hb : Behind p q xs.length := hd.behind (by
    by_cases hx : xs = []
    · exact .inl (by rw [hx]; rfl)
    · have := hle.2.2 hx; omega)
  unfold Spec.Writable at hw
  have h1 := (A.does h hr.has (by unfold CanWrite; omega) hb).ret (f := fun _ => (⟨q, k⟩ : Slice))
  have hr := A.hD _ _ _ hr.has
  rw [h] at hr
  unfold Does at h1 ⊢
  unfold decode
  rw [wp_bind]
  unfold wp
  rw [hr]
  show wp (ensure (decide (d ≥ k)) >>= _) _ _ _
  rw [wp_bind, wp_ensure, if_pos (by simpa using hk)]
  exact h1

theorem decode_any_ok {m : Mem} {p q : Ptr} {xs ys : List Byte} {d : Nat} (hr : Spec.Reads m p xs) (hw : Spec.Writable m q d)
    (hd : Spec.NoOverlap p xs.length q d) (hy : A.full xs = some ys) (h : ys.length ≤ d) :
    ∃ m', (A.decode ⟨p, xs.length⟩ ⟨q, d⟩).run m = .ok ⟨q, ys.length⟩ m' ∧ Spec.Wrote m m' q ys := by
  obtain ⟨n, hn, _⟩ := A.dlen_of_full hy
  exact (A.decode_any_does hr hw hd hn h).raw_ok hy

theorem decode_any_short {m : Mem} {p q : Ptr} {xs ys : List Byte} {d : Nat} (hr : Spec.Reads m p xs)
    (hy : A.full xs = some ys) (h : d < ys.length) : (A.decode ⟨p, xs.length⟩ ⟨q, d⟩).run m = .err m := by
  obtain ⟨n, hn, _⟩ := A.dlen_of_full hy
  have hr := A.hD _ _ _ hr.has
  rw [hn] at hr
  unfold decode
  rw [run_bind, hr]
  show (ensure (decide (d ≥ ys.length)) >>= _ : Prog Slice).run _ = _
  exact run_ensure_false (by simp; omega)

theorem decode_any_err {m : Mem} {p q : Ptr} {xs : List Byte} {d : Nat} (hr : Spec.Reads m p xs) (hw : Spec.Writable m q d)
    (hd : Spec.NoOverlap p xs.length q d) (hy : A.full xs = none) :
    ∃ m', (A.decode ⟨p, xs.length⟩ ⟨q, d⟩).run m = .err m' ∧ Spec.OnlyChanged m m' q d := by
  have hr' := A.hD _ _ _ hr.has
  cases hdl : A.dlen xs with
  | none =>
    rw [hdl] at hr'
    refine ⟨m, ?_, SameOutside.refl.only⟩
    unfold decode
    rw [run_bind, hr']
  | some r =>
    obtain ⟨n, k⟩ := r
    by_cases hk : k ≤ d
    · rcases wp_out (A.decode_any_does hr hw hd hdl hk) with ⟨a, m', _, _, zs, hz, _⟩ | ⟨m', h1, _, hso⟩
      · rw [hy] at hz; cases hz
      · exact ⟨m', h1, (hso.mono rfl (Nat.le_refl _) (by omega)).only⟩
    · rw [hdl] at hr'
      refine ⟨m, ?_, SameOutside.refl.only⟩
      unfold decode
      rw [run_bind, hr']
      show (ensure (decide (d ≥ k)) >>= _ : Prog Slice).run _ = _
      exact run_ensure_false (by simp; omega)

theorem inplace_any_ok {m : Mem} {p : Ptr} {xs ys : List Byte} (hr : Spec.Reads m p xs) (hy : A.full xs = some ys) :
    ∃ m', (A.inplace ⟨p, xs.length⟩).run m = .ok ⟨p, ys.length⟩ m' ∧ Spec.Wrote m m' p ys := by
  rcases wp_out (A.inplace_wp hr.has) with ⟨a, m', h1, zs, hz, rfl, rfl⟩ | ⟨m', _, hn, _⟩
  · rw [hy] at hz; cases hz
    exact ⟨_, h1, wrote_write _ _ _⟩
  · rw [hy] at hn; cases hn

theorem inplace_any_err {m : Mem} {p : Ptr} {xs : List Byte} (hr : Spec.Reads m p xs) (hy : A.full xs = none) :
    ∃ m', (A.inplace ⟨p, xs.length⟩).run m = .err m' ∧ Spec.OnlyChanged m m' p xs.length := by
  rcases wp_out (A.inplace_wp hr.has) with ⟨a, m', h1, zs, hz, rfl, rfl⟩ | ⟨m', h1, _, hso⟩
  · rw [hy] at hz; cases hz
  · exact ⟨_, h1, hso.only⟩

theorem check_any {m : Mem} {p : Ptr} {xs : List Byte} (hr : Spec.Reads m p xs) :
    (A.check ⟨p, xs.length⟩).run m = if (A.full xs).isSome then .ok () m else .err m := by
  have hD := A.hD _ _ _ hr.has
  unfold check full
  rw [run_bind, hD]
  cases hdl : A.dlen xs with
  | none => rfl
  | some r =>
    obtain ⟨n, k⟩ := r
    have := A.hchk _ _ _ _ _ hdl hr.has
    show (A.chk p n).run m = _
    rw [Option.bind_some]
    by_cases h : (A.spec (xs.take n)).isSome
    · rw [if_pos h]; exact this.run_ok h
    · rw [if_neg h]; exact this.run_err (by simpa using h)

end DecApi
end Simd
