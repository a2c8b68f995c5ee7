import Verif.Lemmas.Blocks
/-
Loops `while n >= T { …; src += a; dst += b; n -= a }` whose iterations may write `j` more bytes than they keep,
followed by code that overwrites the surplus.
-/
namespace Simd

/-- Such a loop, about to read `n` bytes at `p` and write `o` bytes at `q`, never reads a byte that has been written: different
allocations, the destination stays behind, or no overlap at all. `e` bytes in front of `p` may be read too. -/
def CdSafe (p q : Ptr) (n o a c e : Nat) : Prop :=
  p.buf ≠ q.buf ∨ (q.off ≤ p.off ∧ c ≤ a) ∨ p.off + n ≤ q.off ∨ q.off + o + e ≤ p.off

theorem countdown {ρ : Type} {F : Ptr → Ptr → Nat → Prog (Ptr × Ptr × Nat)} {K : Ptr × Ptr × Nat → Prog ρ} {r : ρ}
    {spec : List Byte → Option (List Byte)} {out : Nat → Nat} {a b j T e : Nat} {I : Mem → Ptr → Prop} {ok : Nat → Prop}
    (ha : 0 < a) (haT : a ≤ T)
    (hstop : ∀ p q n, n < T → F p q n = pure (p, q, n))
    (hout : ∀ n, T ≤ n → ok n → out n = b + out (n - a) ∧ j ≤ out (n - a) ∧ ok (n - a))
    (happ : ∀ xs ys, xs.length = a → spec (xs ++ ys) = (spec xs).bind fun u => (spec ys).map (u ++ ·))
    (hI : ∀ m p (q : Ptr) (xs zs : List Byte), I m p → HasBytes m p xs → T ≤ xs.length →
      CdSafe p q xs.length (b + j) a (b + j) e → zs.length = b + j → I (m.write q zs) (p.add a))
    (hstep : ∀ m p q n xs Q E, T ≤ n → ok n → xs.length = n → HasBytes m p xs → CanWrite m q (out n) →
      CdSafe p q n (out n) a (b + j) e → I m p →
      (∀ ys junk, spec (xs.take a) = some ys → ys.length = b → junk.length = j →
        wp (F (p.add a) (q.add b) (n - a)) Q E (m.write q (ys ++ junk))) →
      (spec (xs.take a) = none → ∀ m', SameOutside m m' q (b + j) → E m') →
      wp (F p q n) Q E m)
    (hK : ∀ m p q n xs, n < T → ok n → xs.length = n → HasBytes m p xs → CanWrite m q (out n) →
      CdSafe p q n (out n) a (b + j) e → I m p → Does (K (p, q, n)) r spec xs q (out n) m) :
    ∀ n m p q xs, ok n → xs.length = n → HasBytes m p xs → CanWrite m q (out n) →
      CdSafe p q n (out n) a (b + j) e → I m p → Does (F p q n >>= K) r spec xs q (out n) m := by
  intro n
  induction n using Nat.strongRecOn with
  | ind n ih =>
    intro m p q xs hok hl hs hw hd hi
    by_cases hn : T ≤ n
    · obtain ⟨ho, hj, hok'⟩ := hout n hn hok
      unfold Does
      rw [wp_bind]
      have hxa : a ≤ xs.length := by omega
      have hla : (xs.take a).length = a := by rw [List.length_take]; omega
      have hsplit : spec xs = (spec (xs.take a)).bind fun u => (spec (xs.drop a)).map (u ++ ·) := by
        rw [← happ _ _ hla, List.take_append_drop]
      unfold CanWrite at hw
      refine hstep m p q n xs _ _ hn hok hl hs hw hd hi ?_ ?_
      · intro ys junk hy hyl hjl
        have hb : HasBytes (m.write q (ys ++ junk)) (p.add a) (xs.drop a) := by
          apply (hs.drop a hxa).write
          rcases hd with hd | hd | hd | hd
          · exact .inl (Ne.symm hd)
          · right; left; simp; omega
          · right; right; simp; omega
          · right; left; simp; omega
        have hd' : CdSafe (p.add a) (q.add b) (n - a) (out (n - a)) a (b + j) e := by
          unfold CdSafe at hd ⊢
          simp only [Ptr.add_buf, Ptr.add_off]
          omega
        have hdI : CdSafe p q xs.length (b + j) a (b + j) e := by
          unfold CdSafe at hd ⊢
          omega
        have := ih (n - a) (by omega) (m.write q (ys ++ junk)) (p.add a) (q.add b) (xs.drop a) hok' (by simp; omega) hb
          (by unfold CanWrite; simp; omega) hd' (hI m p q xs _ hi hs (by omega) hdI (by simp; omega))
        unfold Does at this
        rw [wp_bind] at this
        refine wp_mono this ?_ ?_
        · intro s m1 h1
          refine wp_mono h1 ?_ ?_
          · rintro r' m2 ⟨rfl, zs, hz, hzl, rfl⟩
            refine ⟨rfl, ys ++ zs, ?_, by simp; omega, ?_⟩
            · rw [hsplit, hy, hz]; rfl
            · subst hyl; exact Mem.write_append_junk m q ys junk zs (by omega)
          · rintro m2 ⟨hz, hso⟩
            refine ⟨?_, hso.after_write rfl (Nat.le_refl _) (by simp; omega) rfl (by simp) (by simp; omega)⟩
            rw [hsplit, hy, hz]; rfl
        · rintro m2 ⟨hz, hso⟩
          refine ⟨?_, hso.after_write rfl (Nat.le_refl _) (by simp; omega) rfl (by simp) (by simp; omega)⟩
          rw [hsplit, hy, hz]; rfl
      · intro hz m' hso
        refine ⟨?_, hso.mono rfl (Nat.le_refl _) (by omega)⟩
        rw [hsplit, hz]; rfl
    · unfold Does
      rw [hstop p q n (by omega), wp_bind, wp_pure]
      exact hK m p q n xs (by omega) hok hl hs hw hd hi

/-- Continuing after the first part of the result has been written. -/
theorem Does.after {α : Type} {x : Prog α} {r : α} {spec : List Byte → Option (List Byte)} {xs ys : List Byte} {k n1 n2 n : Nat} {q : Ptr} {m : Mem}
    (hy : spec (xs.take k) = some ys) (hl : ys.length = n1) (hn : n = n1 + n2)
    (happ : spec (xs.take k ++ xs.drop k) = (spec (xs.take k)).bind fun u => (spec (xs.drop k)).map (u ++ ·))
    (h : Does x r spec (xs.drop k) (q.add n1) n2 (m.write q ys)) :
    wp x (fun a m' => a = r ∧ Post spec xs q n m m') (Fail spec xs q n m) (m.write q ys) := by
  rw [List.take_append_drop] at happ
  refine wp_mono h ?_ ?_
  · rintro r' m2 ⟨rfl, zs, hz, hzl, rfl⟩
    refine ⟨rfl, ys ++ zs, ?_, by simp; omega, Mem.write_append' m q ys zs hl⟩
    rw [happ, hy, hz]; rfl
  · rintro m2 ⟨hz, hso⟩
    refine ⟨?_, hso.after_write rfl (Nat.le_refl _) (by omega) rfl (by simp) (by simp; omega)⟩
    rw [happ, hy, hz]; rfl

/-- The same for loops that only read. -/
theorem check_countdown {ρ : Type} {F : Ptr → Nat → Prog (Ptr × Nat)} {K : Ptr × Nat → Prog ρ} {r : ρ}
    {good : List Byte → Bool} {a T : Nat} {ok : Nat → Prop}
    (ha : 0 < a) (haT : a ≤ T)
    (hstop : ∀ p n, n < T → F p n = pure (p, n))
    (hok : ∀ n, T ≤ n → ok n → ok (n - a))
    (happ : ∀ xs ys, xs.length = a → good (xs ++ ys) = (good xs && good ys))
    (hstep : ∀ m p n xs Q E, T ≤ n → xs.length = n → HasBytes m p xs →
      (good (xs.take a) = true → wp (F (p.add a) (n - a)) Q E m) → (good (xs.take a) = false → E m) → wp (F p n) Q E m)
    (hK : ∀ m p n xs, n < T → ok n → xs.length = n → HasBytes m p xs → Checks (K (p, n)) r good xs m) :
    ∀ n m p xs, ok n → xs.length = n → HasBytes m p xs → Checks (F p n >>= K) r good xs m := by
  intro n
  induction n using Nat.strongRecOn with
  | ind n ih =>
    intro m p xs hn hl hs
    by_cases hT : T ≤ n
    · unfold Checks
      rw [wp_bind]
      have hla : (xs.take a).length = a := by rw [List.length_take]; omega
      have hsplit : good xs = (good (xs.take a) && good (xs.drop a)) := by
        rw [← happ _ _ hla, List.take_append_drop]
      refine hstep m p n xs _ _ hT hl hs ?_ ?_
      · intro hg
        have := ih (n - a) (by omega) m (p.add a) (xs.drop a) (hok n hT hn) (by simp; omega) (hs.drop a (by omega))
        unfold Checks at this
        rw [wp_bind] at this
        rw [hsplit, hg, Bool.true_and]; exact this
      · intro hg
        rw [hsplit, hg]; exact ⟨rfl, rfl⟩
    · unfold Checks
      rw [hstop p n (by omega), wp_bind, wp_pure]
      exact hK m p n xs (by omega) hn hl hs

end Simd
