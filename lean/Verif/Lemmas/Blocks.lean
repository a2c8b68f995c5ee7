import Verif.Lemmas.Wp
import Mathlib.Tactic.ByContra
/-
Block-wise list functions and the generic loop theorems.
-/
namespace Simd

/-- Apply `g` to consecutive groups of `a` elements (an incomplete group at the end is ignored). -/
def blocks (a : Nat) (g : (Nat → Byte) → List Byte) (xs : List Byte) : List Byte :=
  (List.range (xs.length / a)).flatMap fun j => g fun r => xs.getD (a * j + r) 0

theorem flatMap_congr' {f f' : Nat → List Byte} {l : List Nat} (h : ∀ j ∈ l, f j = f' j) :
    l.flatMap f = l.flatMap f' := by
  induction l with
  | nil => rfl
  | cons x t ih =>
    rw [List.flatMap_cons, List.flatMap_cons, h x (by simp), ih fun j hj => h j (by simp [hj])]

section
variable {a b : Nat} {g : (Nat → Byte) → List Byte} {xs ys : List Byte}

@[simp] theorem blocks_nil : blocks a g [] = [] := by simp [blocks]

theorem flatMap_range_length (f : Nat → List Byte) (hf : ∀ j, (f j).length = b) (k) :
    ((List.range k).flatMap f).length = b * k := by
  induction k with
  | zero => simp
  | succ k ih => rw [List.range_succ, List.flatMap_append, List.length_append, ih]; simp [hf, Nat.mul_succ]

theorem flatMap_range_getElem? (f : Nat → List Byte) (hf : ∀ j, (f j).length = b) (k i) (hi : i < b * k) :
    ((List.range k).flatMap f)[i]? = (f (i / b))[i % b]? := by
  induction k with
  | zero => omega
  | succ k ih =>
    rw [List.range_succ, List.flatMap_append]
    by_cases h : i < b * k
    · rw [List.getElem?_append_left (by rw [flatMap_range_length f hf]; exact h), ih h]
    · rw [List.getElem?_append_right (by rw [flatMap_range_length f hf]; omega), flatMap_range_length f hf]
      have h1 : i / b = k := by
        apply Nat.div_eq_of_lt_le
        · rw [Nat.mul_comm]; omega
        · rw [Nat.mul_comm]; exact hi
      have h2 : i % b = i - b * k := by
        have := Nat.div_add_mod i b; rw [h1] at this; omega
      simp [h1, h2]

theorem blocks_length (hg : ∀ f, (g f).length = b) : (blocks a g xs).length = b * (xs.length / a) :=
  flatMap_range_length _ (fun _ => hg _) _

theorem blocks_getElem? (hg : ∀ f, (g f).length = b) {i} (hi : i < b * (xs.length / a)) :
    (blocks a g xs)[i]? = (g fun r => xs.getD (a * (i / b) + r) 0)[i % b]? :=
  flatMap_range_getElem? _ (fun _ => hg _) _ _ hi

theorem blocks_append (ha : 0 < a) {k} (h : xs.length = a * k) (hloc : ∀ f f' : Nat → Byte, (∀ r, r < a → f r = f' r) → g f = g f') :
    blocks a g (xs ++ ys) = blocks a g xs ++ blocks a g ys := by
  unfold blocks
  have h1 : (xs ++ ys).length / a = xs.length / a + ys.length / a := by
    rw [List.length_append, h, Nat.mul_add_div ha, Nat.mul_div_cancel_left _ ha]
  have h2 : xs.length / a = k := by rw [h, Nat.mul_div_cancel_left _ ha]
  rw [h1, h2, List.range_add, List.flatMap_append]
  congr 1
  · apply flatMap_congr'
    intro j hj
    apply hloc; intro r hr
    have hj := List.mem_range.1 hj
    have : a * j + r < xs.length := by
      rw [h]
      calc a * j + r < a * j + a := by omega
        _ = a * (j + 1) := by rw [Nat.mul_succ]
        _ ≤ a * k := Nat.mul_le_mul_left _ hj
    simp [List.getD_eq_getElem?_getD, List.getElem?_append_left this]
  · rw [List.flatMap_map]
    apply flatMap_congr'
    intro j _
    apply hloc; intro r _
    have : xs.length ≤ a * (k + j) + r := by rw [h, Nat.mul_add]; omega
    simp only [List.getD_eq_getElem?_getD, List.getElem?_append_right this]
    congr 2
    rw [h, Nat.mul_add]; omega

theorem blocks_one (ha : 0 < a) (h : xs.length = a) : blocks a g xs = g fun r => xs.getD r 0 := by
  unfold blocks
  rw [h, Nat.div_self ha]
  simp

/-- A list of the right length with the right elements is `blocks`. -/
theorem eq_blocks {l : List Byte} (hg : ∀ f, (g f).length = b) (hl : l.length = b * (xs.length / a))
    (h : ∀ i, (hi : i < l.length) → (g fun r => xs.getD (a * (i / b) + r) 0)[i % b]? = some l[i]) :
    l = blocks a g xs := by
  apply List.ext_getElem?
  intro i
  by_cases hi : i < l.length
  · rw [blocks_getElem? hg (by omega), h i hi, List.getElem?_eq_getElem hi]
  · rw [List.getElem?_eq_none (by omega), List.getElem?_eq_none (by rw [blocks_length hg]; omega)]

end

/-! ### Decoding by blocks -/

/-- Block decoder: every character must be in the alphabet (`val c ≠ 255`), then groups of `a` values are
combined by `g`. -/
def decB (val : Byte → Byte) (a : Nat) (g : (Nat → Byte) → List Byte) (xs : List Byte) : Option (List Byte) :=
  if xs.all (fun c => val c != 255#8) then some (blocks a g (xs.map val)) else none

section
variable {val : Byte → Byte} {a b : Nat} {g : (Nat → Byte) → List Byte} {xs ys : List Byte}

@[simp] theorem decB_nil : decB val a g [] = some [] := by simp [decB]

theorem decB_append (ha : 0 < a) {k} (h : xs.length = a * k)
    (hloc : ∀ f f' : Nat → Byte, (∀ r, r < a → f r = f' r) → g f = g f') :
    decB val a g (xs ++ ys) = (decB val a g xs).bind fun u => (decB val a g ys).map (u ++ ·) := by
  unfold decB
  rw [List.all_append, List.map_append, blocks_append ha (by simpa using h) hloc]
  cases xs.all (fun c => val c != 255#8) <;> cases ys.all (fun c => val c != 255#8) <;> rfl

theorem decB_length (hg : ∀ f, (g f).length = b) (h : decB val a g xs = some ys) : ys.length = b * (xs.length / a) := by
  unfold decB at h
  split at h
  · simp at h; subst h; rw [blocks_length hg]; simp
  · simp at h

theorem decB_none_iff : decB val a g xs = none ↔ ∃ c ∈ xs, val c = 255#8 := by
  unfold decB
  split
  · rename_i h
    simp only [reduceCtorEq, false_iff]
    rintro ⟨c, hc, h255⟩
    have := List.all_eq_true.1 h c hc
    simp [h255] at this
  · rename_i h
    simp only [true_iff]
    by_contra hc
    apply h
    rw [List.all_eq_true]
    intro c hc'
    rw [bne_iff_ne]
    exact fun h255 => hc ⟨c, hc', h255⟩

end

/-! ### Loops -/

/-- Success: the result of `spec` has been written to `q` and nothing else has changed. -/
def Post (spec : List Byte → Option (List Byte)) (xs : List Byte) (q : Ptr) (n : Nat) (m m' : Mem) : Prop :=
  ∃ ys, spec xs = some ys ∧ ys.length = n ∧ m' = m.write q ys
/-- Failure: `spec` rejects and only the `n` bytes at `q` may have changed. -/
def Fail (spec : List Byte → Option (List Byte)) (xs : List Byte) (q : Ptr) (n : Nat) (m m' : Mem) : Prop :=
  spec xs = none ∧ SameOutside m m' q n

/-- Run on `m`, the program `x` applies `spec` to `xs`, writes the `n`-byte result to `q` and returns `r`. -/
def Does {α : Type} (x : Prog α) (r : α) (spec : List Byte → Option (List Byte)) (xs : List Byte) (q : Ptr) (n : Nat) (m : Mem) : Prop :=
  wp x (fun a m' => a = r ∧ Post spec xs q n m m') (Fail spec xs q n m) m

/-- The source (`a` bytes) and the destination (`b` bytes) do not overlap. -/
def Apart (p q : Ptr) (a b : Nat) : Prop := p.buf ≠ q.buf ∨ p.off + a ≤ q.off ∨ q.off + b ≤ p.off

/-- The destination starts no later than the source (of `n` bytes) or behind its end. -/
def Behind (p q : Ptr) (n : Nat) : Prop := p.buf ≠ q.buf ∨ q.off ≤ p.off ∨ p.off + n ≤ q.off

theorem Behind.mono {p q : Ptr} {n n' : Nat} (h : Behind p q n) (hn : n' ≤ n) : Behind p q n' := by
  unfold Behind at *; omega

theorem Apart.mono {p q : Ptr} {a b a' b' : Nat} (h : Apart p q a b) (ha : a' ≤ a) (hb : b' ≤ b) : Apart p q a' b' := by
  unfold Apart at *; omega

/-- Going on in both regions. -/
theorem Apart.sub {p q : Ptr} {a b c d a' b' : Nat} (h : Apart p q a b) (ha : c + a' ≤ a) (hb : d + b' ≤ b) :
    Apart (p.add c) (q.add d) a' b' := by
  unfold Apart at *; simp only [Ptr.add_buf, Ptr.add_off]; omega

theorem HasBytes.write_apart {m p xs q n} (h : HasBytes m p xs) (hd : Apart p q xs.length n) {zs : List Byte} (hz : zs.length ≤ n) :
    HasBytes (m.write q zs) p xs := by
  apply h.write
  rcases hd with hd | hd | hd
  · exact .inl (Ne.symm hd)
  · exact .inr (.inr hd)
  · exact .inr (.inl (by omega))

/-- Reading `k` blocks of `a` bytes at `p` in order, writing `b` bytes at `q` after each one, never reads a byte that has been
written: different allocations, the destination stays behind, or no overlap at all. -/
def Safe (p q : Ptr) (a b k : Nat) : Prop :=
  p.buf ≠ q.buf ∨ (q.off ≤ p.off ∧ b ≤ a) ∨ p.off + a * k ≤ q.off ∨ q.off + b * k ≤ p.off

/-- Sequential composition on consecutive parts of the input. -/
theorem Does.seqS {α β : Type} {x : Prog α} {f : α → Prog β} {spec : List Byte → Option (List Byte)} {xs : List Byte} {k n1 n2 n : Nat}
    {p q : Ptr} {m : Mem} {r0 : α} {r1 : β} (hs : HasBytes m p xs) (hk : k ≤ xs.length) (hw : CanWrite m q n) (hn : n = n1 + n2)
    (hd : p.buf ≠ q.buf ∨ q.off + n1 ≤ p.off + k ∨ p.off + xs.length ≤ q.off)
    (happ : spec (xs.take k ++ xs.drop k) = (spec (xs.take k)).bind fun u => (spec (xs.drop k)).map (u ++ ·))
    (h1 : Does x r0 spec (xs.take k) q n1 m)
    (h2 : ∀ m', HasBytes m' (p.add k) (xs.drop k) → CanWrite m' (q.add n1) n2 → m'.size = m.size →
      Does (f r0) r1 spec (xs.drop k) (q.add n1) n2 m') :
    Does (x >>= f) r1 spec xs q n m := by
  unfold Does
  rw [wp_bind]
  rw [List.take_append_drop] at happ
  have hsp : HasBytes m p (xs.take k ++ xs.drop k) := by rw [List.take_append_drop]; exact hs
  have hlk : (xs.take k).length = k := by rw [List.length_take]; omega
  unfold CanWrite at hw
  refine wp_mono h1 ?_ ?_
  · rintro r m' ⟨rfl, ys, hy, hyl, rfl⟩
    have hb : HasBytes (m.write q ys) (p.add k) (xs.drop k) := by
      apply (hs.drop k hk).write
      rcases hd with hd | hd | hd
      · exact .inl (Ne.symm hd)
      · right; left; simp; omega
      · right; right; simp; omega
    refine wp_mono (h2 _ hb (by unfold CanWrite; simp; omega) rfl) ?_ ?_
    · rintro r m'' ⟨hP, zs, hz, hzl, rfl⟩
      refine ⟨hP, ys ++ zs, ?_, by simp [hyl, hzl, hn], Mem.write_append' m q ys zs hyl⟩
      rw [happ, hy, hz]; rfl
    · rintro m'' ⟨hn', hso⟩
      refine ⟨?_, hso.after_write rfl (Nat.le_refl _) (by omega) rfl (by simp) (by simp; omega)⟩
      rw [happ, hy, hn']; rfl
  · rintro m' ⟨hn', hso⟩
    refine ⟨?_, hso.mono rfl (Nat.le_refl _) (by omega)⟩
    rw [happ, hn']; rfl

theorem Does.padd {β : Type} {f : Unit → Prog β} {p : Ptr} {k : Nat} {r spec xs q n m} (hk : p.off + k ≤ m.size p.buf)
    (h : Does (f ()) r spec xs q n m) : Does (Simd.padd p k >>= f) r spec xs q n m := by
  unfold Does
  rw [wp_bind, wp_padd]; exact ⟨hk, h⟩

theorem Does.pure {α : Type} {r : α} {spec : List Byte → Option (List Byte)} (hnil : spec [] = some []) {q m} : Does (Pure.pure r) r spec [] q 0 m :=
  ⟨rfl, [], hnil, rfl, by simp⟩

theorem Does.nil {α : Type} {r : α} {spec : List Byte → Option (List Byte)} (hnil : spec [] = some []) {xs q n m}
    (hx : xs.length = 0) (hn : n = 0) : Does (Pure.pure r) r spec xs q n m := by
  have := List.length_eq_zero_iff.1 hx
  subst this; subst hn; exact Does.pure hnil

/-- Generic copy loop `while src < end { …; src += a; dst += b }`. `D k p q` allows copying `k` more blocks from `p` to `q`.
`spec` is a function on lists that works block by block; `hstep` is one iteration, in continuation style. -/
theorem loop_specD {ρ : Type} {D : Nat → Ptr → Ptr → Prop} {F : Nat → Ptr → Ptr → Prog ρ} {ret : Ptr → Ptr → ρ} {a b : Nat}
    (ha : 0 < a)
    (hDw : ∀ k p q, D (k + 1) p q → q.buf ≠ p.buf ∨ q.off + b ≤ p.off + a ∨ p.off + a * (k + 1) ≤ q.off)
    (hDs : ∀ k p q, D (k + 1) p q → D k (p.add a) (q.add b))
    (hend : ∀ e p q, ¬ p.off < e → F e p q = pure (ret p q))
    {spec : List Byte → Option (List Byte)} (hnil : spec [] = some [])
    (happ : ∀ xs ys, xs.length = a → spec (xs ++ ys) = (spec xs).bind fun u => (spec ys).map (u ++ ·))
    (hstep : ∀ e m p q xs Q E, p.off < e → xs.length = a → HasBytes m p xs → CanWrite m q b → (∃ k, D (k + 1) p q) →
      (∀ ys, spec xs = some ys → ys.length = b → wp (F e (p.add a) (q.add b)) Q E (m.write q ys)) →
      (spec xs = none → ∀ m', SameOutside m m' q b → E m') →
      wp (F e p q) Q E m) :
    ∀ k m p q xs, xs.length = a * k → HasBytes m p xs → CanWrite m q (b * k) → D k p q →
      Does (F (p.off + a * k) p q) (ret (p.add (a * k)) (q.add (b * k))) spec xs q (b * k) m := by
  intro k
  induction k with
  | zero =>
    intro m p q xs hl hs hw hd
    have : xs = [] := List.length_eq_zero_iff.1 (by simpa using hl)
    subst this
    rw [hend _ _ _ (by omega)]; exact Does.pure hnil
  | succ k ih =>
    intro m p q xs hl hs hw hd
    have hsplit : xs = xs.take a ++ xs.drop a := (List.take_append_drop a xs).symm
    have hla : (xs.take a).length = a := by rw [List.length_take, hl, Nat.mul_succ]; omega
    have hlk : (xs.drop a).length = a * k := by rw [List.length_drop, hl, Nat.mul_succ]; omega
    have hs' := hs
    rw [hsplit] at hs'
    have hw' : q.off + (b * k + b) ≤ m.size q.buf := by rw [← Nat.mul_succ]; exact hw
    refine hstep _ m p q (xs.take a) _ _ (by rw [Nat.mul_succ]; omega) hla hs'.left (by unfold CanWrite; omega) ⟨k, hd⟩ ?_ ?_
    · intro ys hy hyl
      have hb : HasBytes (m.write q ys) (p.add a) (xs.drop a) := by
        have hr := hs'.right
        rw [hla] at hr
        apply hr.write
        rcases hDw k p q hd with h | h | h
        · exact .inl h
        · right; left; simp; omega
        · right; right; simp [hl]; rw [Nat.mul_succ] at h ⊢; omega
      have := ih (m.write q ys) (p.add a) (q.add b) (xs.drop a) hlk hb (by unfold CanWrite; simp; omega) (hDs k p q hd)
      rw [show p.off + a * (k + 1) = (p.add a).off + a * k by simp [Nat.mul_succ]; omega]
      refine wp_mono this ?_ ?_
      · rintro r m'' ⟨rfl, zs, hz, hzl, rfl⟩
        refine ⟨?_, ys ++ zs, ?_, ?_, ?_⟩
        · simp [Nat.mul_succ, Nat.add_comm]
        · rw [hsplit, happ _ _ hla, hy, hz]; rfl
        · rw [List.length_append, hyl, hzl, Nat.mul_succ, Nat.add_comm]
        · exact Mem.write_append' m q ys zs hyl
      · rintro m'' ⟨hn, hso⟩
        refine ⟨?_, ?_⟩
        · rw [hsplit, happ _ _ hla, hy, hn]; rfl
        · exact hso.after_write rfl (Nat.le_refl _) (by rw [hyl, Nat.mul_succ]; omega) rfl (by simp)
            (by simp [Nat.mul_succ]; omega)
    · intro hn m' hso
      refine ⟨?_, hso.mono rfl (Nat.le_refl _) (by rw [Nat.mul_succ]; omega)⟩
      rw [hsplit, happ _ _ hla, hn]; rfl

/-- `loop_specD` when the destination never runs into the unread source.
`spec` is a function on lists that works block by block; `hstep` is one iteration, in continuation style. -/
theorem loop_specS {ρ : Type} {F : Nat → Ptr → Ptr → Prog ρ} {ret : Ptr → Ptr → ρ} {a b : Nat}
    (ha : 0 < a)
    (hend : ∀ e p q, ¬ p.off < e → F e p q = pure (ret p q))
    {spec : List Byte → Option (List Byte)} (hnil : spec [] = some [])
    (happ : ∀ xs ys, xs.length = a → spec (xs ++ ys) = (spec xs).bind fun u => (spec ys).map (u ++ ·))
    (hstep : ∀ e m p q xs Q E, p.off < e → xs.length = a → HasBytes m p xs → CanWrite m q b → Safe p q a b 1 →
      (∀ ys, spec xs = some ys → ys.length = b → wp (F e (p.add a) (q.add b)) Q E (m.write q ys)) →
      (spec xs = none → ∀ m', SameOutside m m' q b → E m') →
      wp (F e p q) Q E m) :
    ∀ k m p q xs, xs.length = a * k → HasBytes m p xs → CanWrite m q (b * k) → Safe p q a b k →
      Does (F (p.off + a * k) p q) (ret (p.add (a * k)) (q.add (b * k))) spec xs q (b * k) m :=
  loop_specD (D := fun k p q => Safe p q a b k) ha
    (fun k p q h => by
      rcases h with h | h | h | h
      · exact .inl fun e => h e.symm
      · right; left; omega
      · right; right; exact h
      · right; left; rw [Nat.mul_succ] at h; omega)
    (fun k p q h => by
      unfold Safe at h ⊢
      simp only [Nat.mul_succ, Ptr.add_buf, Ptr.add_off] at h ⊢
      rcases h with h | h | h | h
      · exact .inl h
      · right; left; omega
      · right; right; left; omega
      · right; right; right; omega)
    hend hnil happ (fun e m p q xs Q E he hl hs hw hd => by
      obtain ⟨k, hd⟩ := hd
      refine hstep e m p q xs Q E he hl hs hw ?_
      unfold Safe at hd ⊢
      simp only [Nat.mul_succ, Nat.mul_zero, Nat.zero_add] at hd ⊢
      rcases hd with h | h | h | h
      · exact .inl h
      · exact .inr (.inl h)
      · right; right; left; omega
      · right; right; right; omega)

/-- Run on `m`, the read-only program `x` returns `r` if `good xs` and fails otherwise. -/
def Checks {α : Type} (x : Prog α) (r : α) (good : List Byte → Bool) (xs : List Byte) (m : Mem) : Prop :=
  wp x (fun a m' => a = r ∧ good xs = true ∧ m' = m) (fun m' => good xs = false ∧ m' = m) m

theorem Checks.seq {α β : Type} {x : Prog α} {f : α → Prog β} {good : List Byte → Bool} {xs : List Byte} {k : Nat} {m : Mem} {r0 : α} {r1 : β}
    (happ : good (xs.take k ++ xs.drop k) = (good (xs.take k) && good (xs.drop k)))
    (h1 : Checks x r0 good (xs.take k) m) (h2 : Checks (f r0) r1 good (xs.drop k) m) : Checks (x >>= f) r1 good xs m := by
  unfold Checks
  rw [List.take_append_drop] at happ
  rw [wp_bind]
  refine wp_mono h1 ?_ ?_
  · rintro r m' ⟨rfl, hg, rfl⟩
    rw [happ, hg, Bool.true_and]; exact h2
  · rintro m' ⟨hg, rfl⟩
    rw [happ, hg]; exact ⟨rfl, rfl⟩

theorem Checks.padd {β : Type} {f : Unit → Prog β} {p : Ptr} {k : Nat} {r good xs m} (hk : p.off + k ≤ m.size p.buf)
    (h : Checks (f ()) r good xs m) : Checks (Simd.padd p k >>= f) r good xs m := by
  unfold Checks
  rw [wp_bind, wp_padd]; exact ⟨hk, h⟩

theorem Checks.nil {α : Type} {r : α} {good : List Byte → Bool} (hnil : good [] = true) {xs m} (hx : xs.length = 0) :
    Checks (Pure.pure r) r good xs m := by
  have := List.length_eq_zero_iff.1 hx
  subst this; exact ⟨rfl, hnil, rfl⟩

/-- Generic read-only loop `while src < end { …; src += a }`; `good` is a block-wise predicate. -/
theorem check_loop_spec {ρ : Type} {F : Nat → Ptr → Prog ρ} {ret : Ptr → ρ} {a : Nat}
    (ha : 0 < a)
    (hend : ∀ e p, ¬ p.off < e → F e p = pure (ret p))
    {good : List Byte → Bool} (hnil : good [] = true)
    (happ : ∀ xs ys, xs.length = a → good (xs ++ ys) = (good xs && good ys))
    (hstep : ∀ e m p xs Q E, p.off < e → xs.length = a → HasBytes m p xs →
      (good xs = true → wp (F e (p.add a)) Q E m) → (good xs = false → E m) → wp (F e p) Q E m) :
    ∀ k m p xs, xs.length = a * k → HasBytes m p xs →
      Checks (F (p.off + a * k) p) (ret (p.add (a * k))) good xs m := by
  intro k
  induction k with
  | zero =>
    intro m p xs hl hs
    have : xs = [] := List.length_eq_zero_iff.1 (by simpa using hl)
    subst this
    rw [hend _ _ (by omega)]; exact Checks.nil hnil rfl
  | succ k ih =>
    intro m p xs hl hs
    have hsplit : xs = xs.take a ++ xs.drop a := (List.take_append_drop a xs).symm
    have hla : (xs.take a).length = a := by rw [List.length_take, hl, Nat.mul_succ]; omega
    have hlk : (xs.drop a).length = a * k := by rw [List.length_drop, hl, Nat.mul_succ]; omega
    have hs' := hs
    rw [hsplit] at hs'
    refine hstep _ m p (xs.take a) _ _ (by rw [Nat.mul_succ]; omega) hla hs'.left ?_ ?_
    · intro hg
      have := ih m (p.add a) (xs.drop a) hlk (by have := hs'.right; rwa [hla] at this)
      rw [show p.off + a * (k + 1) = (p.add a).off + a * k by simp [Nat.mul_succ]; omega]
      refine wp_mono this ?_ ?_
      · rintro r m'' ⟨rfl, hz, rfl⟩
        refine ⟨by simp [Nat.mul_succ, Nat.add_comm], ?_, rfl⟩
        rw [hsplit, happ _ _ hla, hg, hz]; rfl
      · rintro m'' ⟨hn, rfl⟩
        refine ⟨?_, rfl⟩
        rw [hsplit, happ _ _ hla, hg, hn]; rfl
    · intro hn
      refine ⟨?_, rfl⟩
      rw [hsplit, happ _ _ hla, hn]; rfl

end Simd
