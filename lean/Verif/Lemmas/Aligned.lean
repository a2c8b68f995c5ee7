import Verif.Spec.Aligned
import Verif.Model.Unicode
/-
A judgement on all accesses of a program (`Acc`), and its instances for unicode-simd.
-/
namespace Simd

variable {α β : Type}

/-- All loads are at pointers in `L`, all stores at pointers in `W`, nothing is allocated, and results satisfy `R`. -/
def Acc (L W : Ptr → Prop) (R : α → Prop) : Prog α → Prop
  | .pure a => R a
  | .err => True
  | .panic => True
  | .ub => True
  | .load p _ k => L p ∧ ∀ bs, Acc L W R (k bs)
  | .store p _ k => W p ∧ Acc L W R k
  | .chk _ k => Acc L W R k
  | .alloc _ _ => False

/-- `Acc` without a claim about the result. -/
abbrev Acc' (L W : Ptr → Prop) (x : Prog α) : Prop := Acc L W (fun _ => True) x

namespace Acc
variable {L W : Ptr → Prop} {R : α → Prop} {S : β → Prop}

theorem bind' {x : Prog α} {f : α → Prog β} (h : Acc L W R x) (hf : ∀ a, R a → Acc L W S (f a)) : Acc L W S (Prog.bind x f) := by
  induction x with
  | pure a => exact hf a h
  | err => trivial
  | panic => trivial
  | ub => trivial
  | load p n k ih => exact ⟨h.1, fun bs => ih bs (h.2 bs)⟩
  | store p bs k ih => exact ⟨h.1, ih h.2⟩
  | chk p k ih => exact ih h
  | alloc n k ih => exact h

theorem bind {x : Prog α} {f : α → Prog β} (h : Acc L W R x) (hf : ∀ a, R a → Acc L W S (f a)) : Acc L W S (x >>= f) := bind' h hf
theorem seq {x : Prog α} {f : α → Prog β} (h : Acc' L W x) (hf : ∀ a, Acc L W S (f a)) : Acc L W S (x >>= f) :=
  bind h fun a _ => hf a
theorem ret {a : α} (h : R a) : Acc L W R (pure a : Prog α) := h
theorem loadBytes {p : Ptr} (h : L p) (n) : Acc' L W (loadBytes p n) := ⟨h, fun _ => trivial⟩
theorem storeBytes {p : Ptr} (h : W p) (bs) : Acc' L W (storeBytes p bs) := ⟨h, trivial⟩
theorem padd (p n) : Acc' L W (padd p n) := trivial
theorem liftO (o : Option α) : Acc' L W (liftO o) := by cases o <;> trivial
theorem assert (b) : Acc' L W (assert b) := by cases b <;> trivial

theorem v128_load {p : Ptr} (h : L p) (s) : Acc' L W (Vs.v128_load s p) := by
  unfold Vs.v128_load
  repeat' split
  all_goals first | exact seq (loadBytes h _) fun _ => trivial | trivial
theorem v128_store {p : Ptr} (h : W p) (s x) : Acc' L W (Vs.v128_store s p x) := by
  unfold Vs.v128_store
  repeat' split
  all_goals first | exact storeBytes h _ | trivial
theorem v256_load {p : Ptr} (h : L p) (h' : L (p.add 16)) (s) : Acc' L W (Vs.v256_load s p) := by
  unfold Vs.v256_load
  repeat' split
  · exact seq (loadBytes h _) fun _ => trivial
  · exact seq (loadBytes h _) fun _ => trivial
  · exact seq (v128_load h _) fun _ => seq (padd _ _) fun _ => seq (v128_load (p := p.add 16) h' _) fun _ => trivial
theorem v256_store {p : Ptr} (h : W p) (h' : W (p.add 16)) (s x) : Acc' L W (Vs.v256_store s p x) := by
  unfold Vs.v256_store
  repeat' split
  · exact storeBytes h _
  · exact storeBytes h _
  · exact seq (v128_store h _ _) fun _ => seq (padd _ _) fun _ => v128_store (p := p.add 16) h' _ _

/-- The accesses of every run. -/
theorem trace {x : Prog α} (h : Acc L W R x) (m : Mem) : ∀ a ∈ x.trace m, match a with
    | .load p _ => L p
    | .store p _ => W p := by
  induction x generalizing m with
  | pure a => intro a ha; cases ha
  | err => intro a ha; cases ha
  | panic => intro a ha; cases ha
  | ub => intro a ha; cases ha
  | load p n k ih =>
    intro a ha
    simp only [Prog.trace] at ha
    rcases List.mem_cons.1 ha with rfl | ha
    · exact h.1
    · split at ha
      · exact ih _ (h.2 _) m a ha
      · cases ha
  | store p bs k ih =>
    intro a ha
    simp only [Prog.trace] at ha
    rcases List.mem_cons.1 ha with rfl | ha
    · exact h.1
    · split at ha
      · exact ih h.2 _ a ha
      · cases ha
  | chk p k ih =>
    intro a ha
    simp only [Prog.trace] at ha
    split at ha
    · exact ih h _ a ha
    · cases ha
  | alloc n k ih => exact h.elim

end Acc

theorem Spec.WholeSteps.add {w : Nat} {base p : Ptr} (h : Spec.WholeSteps w base p) {n : Nat} (hn : w ∣ n) : Spec.WholeSteps w base (p.add n) := by
  obtain ⟨hb, k, hk⟩ := h
  obtain ⟨j, rfl⟩ := hn
  exact ⟨hb, k + j, by show p.off + _ = _; rw [hk, Nat.mul_add, Nat.add_assoc]⟩
theorem Spec.WholeSteps.refl (w : Nat) (p : Ptr) : Spec.WholeSteps w p p := ⟨rfl, 0, rfl⟩

namespace Unicode

theorem acc_is_utf32le_fallback_loop {b p : Ptr} {W} (h : Spec.WholeSteps 4 b p) (e f) : Acc' (Spec.WholeSteps 4 b) W (is_utf32le_fallback_loop e p f) := by
  unfold is_utf32le_fallback_loop
  split
  · exact .seq (.loadBytes h _) fun _ => .seq (.padd _ _) fun _ => acc_is_utf32le_fallback_loop (h.add ⟨1, rfl⟩) _ _
  · trivial
termination_by e - p.off
decreasing_by simp only [Ptr.add]; omega
theorem acc_is_utf32le_fallback {b p : Ptr} {W} (h : Spec.WholeSteps 4 b p) (n) : Acc' (Spec.WholeSteps 4 b) W (is_utf32le_fallback p n) :=
  .seq (.padd _ _) fun _ => acc_is_utf32le_fallback_loop h _ _
theorem acc_is_utf32le_loop8 {b p : Ptr} {W} (h : Spec.WholeSteps 4 b p) (s e y) :
    Acc (Spec.WholeSteps 4 b) W (fun r : Ptr × V256 => Spec.WholeSteps 4 b r.1) (is_utf32le_loop8 s e p y) := by
  unfold is_utf32le_loop8
  split
  · exact .seq (.v256_load h (h.add ⟨4, rfl⟩) _) fun _ => .seq (.liftO _) fun _ => .seq (.padd _ _) fun _ => acc_is_utf32le_loop8 (h.add ⟨8, rfl⟩) _ _ _
  · exact h
termination_by e - p.off
decreasing_by simp only [Ptr.add]; omega
theorem acc_is_utf32le (d : Slice) {W} (i) : Acc' (Spec.WholeSteps 4 d.ptr) W (is_utf32le i d) := by
  have h := Spec.WholeSteps.refl 4 d.ptr
  unfold is_utf32le is_utf32le_auto
  cases i with
  | none => exact acc_is_utf32le_fallback h _
  | some s =>
    exact .seq (.liftO _) fun _ => .seq (.padd _ _) fun _ => .bind (acc_is_utf32le_loop8 h _ _ _) fun _ h => .seq (.liftO _) fun _ =>
      .seq (acc_is_utf32le_fallback h _) fun _ => trivial

theorem acc_bswap_fallback_loop {t : Elem} {b c p q : Ptr} (h : Spec.WholeSteps t.size b p) (h' : Spec.WholeSteps t.size c q) (e) :
    Acc' (Spec.WholeSteps t.size b) (Spec.WholeSteps t.size c) (bswap_fallback_loop t e p q) := by
  unfold bswap_fallback_loop
  split
  · exact .seq (.loadBytes h _) fun _ => .seq (.storeBytes h' _) fun _ => .seq (.padd _ _) fun _ => .seq (.padd _ _) fun _ =>
      acc_bswap_fallback_loop (h.add ⟨1, (Nat.mul_one _).symm⟩) (h'.add ⟨1, (Nat.mul_one _).symm⟩) _
  · trivial
termination_by e - p.off
decreasing_by cases t <;> simp only [Ptr.add, Elem.size] <;> omega
theorem acc_bswap_simd_loop {t : Elem} {b c p q : Ptr} (h : Spec.WholeSteps t.size b p) (h' : Spec.WholeSteps t.size c q) (s e) :
    Acc (Spec.WholeSteps t.size b) (Spec.WholeSteps t.size c) (fun r : Ptr × Ptr => Spec.WholeSteps t.size b r.1 ∧ Spec.WholeSteps t.size c r.2)
      (bswap_simd_loop t s e p q) := by
  have h16 : t.size ∣ 16 := by cases t <;> decide
  unfold bswap_simd_loop
  split
  · exact .seq (.v256_load h (h.add h16) _) fun _ => .seq (.liftO _) fun _ => .seq (.v256_store h' (h'.add h16) _ _) fun _ =>
      .seq (.padd _ _) fun _ => .seq (.padd _ _) fun _ => acc_bswap_simd_loop (h.add ⟨_, rfl⟩) (h'.add ⟨_, rfl⟩) _ _
  · exact ⟨h, h'⟩
termination_by e - p.off
decreasing_by cases t <;> simp only [Ptr.add, Elem.size, Elem.lanes] <;> omega
theorem acc_swap_auto (t : Elem) (i) (p q : Ptr) (n) : Acc' (Spec.WholeSteps t.size p) (Spec.WholeSteps t.size q) (swap_auto t i p n q) := by
  unfold swap_auto
  cases i with
  | none => exact .seq (.padd _ _) fun _ => acc_bswap_fallback_loop (.refl _ _) (.refl _ _) _
  | some s => exact .seq (.padd _ _) fun _ => .bind (acc_bswap_simd_loop (.refl _ _) (.refl _ _) _ _) fun _ h => .seq (.padd _ _) fun _ =>
      acc_bswap_fallback_loop h.1 h.2 _

end Unicode
end Simd
