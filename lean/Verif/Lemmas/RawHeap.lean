import Verif.Lemmas.RawApi
/-
Functions that allocate or grow their result, with the source anywhere in any memory.
-/
namespace Simd

theorem Spec.Kept.refl (m : Mem) : Spec.Kept m m := ⟨Nat.le_refl _, fun _ _ => ⟨rfl, fun _ => rfl⟩⟩
theorem Spec.KeptBut.refl (m : Mem) (v : Nat) : Spec.KeptBut m m v := ⟨Nat.le_refl _, fun _ _ _ => ⟨rfl, fun _ => rfl⟩⟩

theorem kept_alloc (m : Mem) (n : Nat) : Spec.Kept m (m.alloc n) := by
  refine ⟨Nat.le_succ _, fun b hb => ?_⟩
  simp only [Mem.alloc, if_neg (show ¬ b = m.nbuf by omega), true_and, implies_true]

theorem Spec.Kept.has {m m' : Mem} (h : Spec.Kept m m') {p xs} (hp : p.buf < m.nbuf) (hx : HasBytes m p xs) : HasBytes m' p xs := by
  obtain ⟨h1, h2⟩ := h.2 _ hp
  exact ⟨by rw [h1]; exact hx.bound, fun i hi => by rw [h2]; exact hx.get hi⟩

theorem Spec.Kept.write {m m' : Mem} (h : Spec.Kept m m') {q : Ptr} {ys} (hq : m.nbuf ≤ q.buf) : Spec.Kept m (m'.write q ys) := by
  refine ⟨h.1, fun b hb => ⟨(h.2 b hb).1, fun o => ?_⟩⟩
  rw [Mem.write_cell, if_neg (by omega)]
  exact (h.2 b hb).2 o

theorem Spec.Kept.outside {m m1 m' : Mem} (h : Spec.Kept m m1) {q : Ptr} {n} (hso : SameOutside m1 m' q n) (hq : m.nbuf ≤ q.buf) : Spec.Kept m m' := by
  refine ⟨by rw [hso.nbuf]; exact h.1, fun b hb => ⟨by rw [hso.size]; exact (h.2 b hb).1, fun o => ?_⟩⟩
  rw [hso.cell _ _ (by omega)]
  exact (h.2 b hb).2 o

theorem Spec.Kept.but {m m' : Mem} (h : Spec.Kept m m') (v : Nat) : Spec.KeptBut m m' v := ⟨h.1, fun b hb _ => h.2 b hb⟩

theorem Spec.Grown.refl (P : Plat) (n : Nat) (m : Mem) (v : RVec) : Spec.Grown P n m v m v := ⟨.refl m _, .inl ⟨rfl, rfl⟩⟩

theorem Spec.Grown.mono {P : Plat} {n k : Nat} {m m' : Mem} {v v' : RVec} (h : Spec.Grown P n m v m' v') (hk : n ≤ k) : Spec.Grown P k m v m' v' :=
  ⟨h.1, h.2.imp id fun ⟨a, b, c⟩ => ⟨a, by omega, c⟩⟩

theorem Spec.KeptBut.has {m m' : Mem} {v : Nat} (h : Spec.KeptBut m m' v) {p xs} (hp : p.buf < m.nbuf) (hv : p.buf ≠ v) (hx : HasBytes m p xs) : HasBytes m' p xs := by
  obtain ⟨h1, h2⟩ := h.2 _ hp hv
  exact ⟨by rw [h1]; exact hx.bound, fun i hi => by rw [h2]; exact hx.get hi⟩

theorem Spec.IsVec.is {m v ys} (h : Spec.IsVec m v ys) : VecIs m v ys := ⟨h.2.2.2.has, h.2.2.1, h.2.1, h.1⟩
theorem VecIs.spec {m v ys} (h : VecIs m v ys) : Spec.IsVec m v ys := ⟨h.alive, h.cap, h.len, h.bytes⟩

theorem Spec.NewBox.vec {m m' s ys} (h : Spec.NewBox m m' s ys) : Spec.NewVec m m' (RVec.ofBox s) ys := by
  obtain ⟨⟨b, o⟩, n⟩ := s
  obtain ⟨h1, h2, h3, h4, h5, h6⟩ := h
  simp only at h1 h2 h3 h4 h5
  subst h3 h4
  exact ⟨h1, h2, h5.symm, rfl, h6⟩

/-- An empty box. -/
theorem box_empty_wp {m : Mem} : wp box_empty (fun s m' => Spec.NewBox m m' s [] ∧ Spec.Kept m m') (fun _ => False) m := by
  show Spec.NewBox m (m.alloc 0) ⟨⟨m.nbuf, 0⟩, 0⟩ [] ∧ Spec.Kept m (m.alloc 0)
  refine ⟨⟨Nat.le_refl _, Nat.lt_succ_self _, rfl, rfl, by simp [Mem.alloc], by simp, fun i hi => by simp at hi⟩, kept_alloc m 0⟩

/-- A freshly allocated box filled by `body`. -/
theorem boxed_any {P : Plat} {spec : List Byte → Option (List Byte)} {xs : List Byte} {n : Nat} {body : Ptr → Prog Unit} (h0 : 0 < n) (h1 : n ≤ P.isizeMax)
    {m : Mem} {p : Ptr} (hp : p.buf < m.nbuf) (hx : HasBytes m p xs)
    (hbody : ∀ m q, HasBytes m p xs → CanWrite m q n → p.buf ≠ q.buf → Does (body q) () spec xs q n m) :
    wp (do let buf ← alloc_uninit_bytes P n; body buf.ptr; assume_init buf)
      (fun s m' => ∃ ys, spec xs = some ys ∧ Spec.NewBox m m' s ys ∧ Spec.Kept m m') (fun m' => spec xs = none ∧ Spec.Kept m m') m := by
  rw [show alloc_uninit_bytes P n = .alloc n fun b => .pure ⟨⟨b, 0⟩, n⟩ by rw [alloc_uninit_bytes, if_pos ⟨h0, h1⟩]]
  show wp (body ⟨m.nbuf, 0⟩ >>= fun _ => assume_init ⟨⟨m.nbuf, 0⟩, n⟩) _ _ (m.alloc n)
  have hk := kept_alloc m n
  have hsz : (m.alloc n).size m.nbuf = n := by simp [Mem.alloc]
  rw [wp_bind]
  refine wp_mono (hbody (m.alloc n) ⟨m.nbuf, 0⟩ (hk.has hp hx) (by unfold CanWrite; simp only [hsz]; omega) (by simp only; omega)) ?_ ?_
  · rintro _ m' ⟨-, ys, hy, hyl, rfl⟩
    have hb := hasBytes_write_self (m := m.alloc n) (q := ⟨m.nbuf, 0⟩) (ys := ys) (by simp only [hsz]; omega)
    unfold assume_init
    rw [wp_bind, wp_loadBytes_iff hb hyl, wp_pure]
    refine ⟨ys, hy, ⟨Nat.le_refl _, Nat.lt_succ_self _, rfl, hyl.symm, ?_, hb⟩, hk.write (Nat.le_refl _)⟩
    simp only [Mem.write_size, hsz, hyl]
  · rintro m' ⟨hn, hso⟩
    exact ⟨hn, hk.outside hso (Nat.le_refl _)⟩

/-- `reserve_exact`. -/
theorem reserve_any {P : Plat} {extra n : Nat} {v : RVec} {prev : List Byte} {m : Mem} {Q : RVec → Mem → Prop} {E} (hv : VecIs m v prev)
    (hcap : n ≤ v.cap - v.len ∨ v.len + n + extra ≤ P.isizeMax)
    (h : ∀ v' m', VecIs m' v' prev → prev.length + n ≤ v'.cap →
      (v'.buf = v.buf ∧ v'.cap = v.cap ∨ m.nbuf ≤ v'.buf ∧ v.cap < v.len + n ∧ v.cap < v'.cap ∧ v'.cap ≤ P.isizeMax) → Spec.Kept m m' → Q v' m') :
    wp (v.reserve_exact P extra n) Q E m := by
  have hl := hv.len
  have hcp := hv.cap
  have hb := hv.bytes.bound
  unfold RVec.reserve_exact
  split
  · rename_i hc
    exact h v m hv (by simp at hb; omega) (.inl ⟨rfl, rfl⟩) (.refl m)
  · rename_i hc
    rw [if_pos (hcap.resolve_left hc), wp_bind, wp_loadBytes_iff hv.bytes hl.symm, wp_alloc]
    simp only [wp_bind, wp_storeBytes]
    have hsz : (m.alloc (v.len + n + extra)).size m.nbuf = v.len + n + extra := by simp [Mem.alloc]
    refine ⟨by simp only [hsz]; omega, ?_⟩
    refine h _ _ ⟨hasBytes_write_self (by simp only [hsz]; omega), hl, by simp only [Mem.write_size, hsz], ?_⟩ (by simp; omega)
      (.inr ⟨Nat.le_refl _, by omega, by dsimp only; omega, hcap.resolve_left hc⟩)
      ((kept_alloc m _).write (Nat.le_refl _))
    simp [Mem.write, Mem.alloc]

/-- The common shape of the appending functions: reserve, fill the spare capacity, commit the length. -/
theorem append_any {P : Plat} {extra n : Nat} {v : RVec} {prev xs : List Byte} {spec : List Byte → Option (List Byte)} {m : Mem} {body : Ptr → Prog Unit}
    {p : Ptr} (hv : VecIs m v prev) (hx : HasBytes m p xs) (h0 : p.buf ≠ v.buf) (hm : p.buf < m.nbuf)
    (hcap : n ≤ v.cap - v.len ∨ v.len + n + extra ≤ P.isizeMax) (hcap' : v.cap ≤ P.isizeMax)
    (hbody : ∀ m q, HasBytes m p xs → CanWrite m q n → p.buf ≠ q.buf → Does (body q) () spec xs q n m) :
    wp (do
      let buf ← v.reserve_exact P extra n
      padd ⟨buf.buf, 0⟩ buf.len
      match ← (body ⟨buf.buf, buf.len⟩).attempt with
      | none => pure (buf, .error ())
      | some _ =>
        let buf ← buf.set_len (← liftO (P.addU buf.len n))
        pure (buf, .ok ()))
      (fun (r : RVec × Except Unit Unit) m' => (∃ ys, spec xs = some ys ∧ r.2 = .ok () ∧ Spec.IsVec m' r.1 (prev ++ ys) ∧ Spec.Grown P ys.length m v m' r.1) ∨
        (spec xs = none ∧ r.2 = .error () ∧ Spec.IsVec m' r.1 prev ∧ Spec.Grown P n m v m' r.1)) (fun _ => False) m := by
  rw [wp_bind]
  refine reserve_any (n := n) hv hcap ?_
  intro v' m' hv' hc' hb' hkeep
  have hx' := hkeep.has hm hx
  have hl := hv'.len
  have hcp := hv'.cap
  have hne : p.buf ≠ v'.buf := by omega
  have hkw : ∀ b, b < m.nbuf → b ≠ v.buf → b ≠ v'.buf := by omega
  rw [wp_bind, wp_padd, wp_bind, wp_attempt]
  refine ⟨by simp only; omega, ?_⟩
  refine wp_mono (hbody m' ⟨v'.buf, v'.len⟩ hx' (by unfold CanWrite; simp only; omega) hne) ?_ ?_
  · rintro _ m'' ⟨-, ys, hy, hyl, rfl⟩
    have hmax : v'.len + n ≤ P.usizeMax := by
      have := isizeMax_le P
      have h1 := hv.len
      have h2 := hv.cap
      have h3 := hv.bytes.bound
      simp only [Nat.zero_add] at h3
      omega
    have hnew : HasBytes (m'.write ⟨v'.buf, v'.len⟩ ys) ⟨v'.buf, 0⟩ (prev ++ ys) := by
      refine HasBytes.append (hv'.bytes.write (.inr (.inr (by simp only; omega)))) ?_
      rw [hl]
      have := hasBytes_write_self (m := m') (q := ⟨v'.buf, prev.length⟩) (ys := ys) (by show _ ≤ m'.size v'.buf; simp only; omega)
      rw [Ptr.add]; simpa using this
    simp only [wp_bind, wp_addU hmax]
    refine set_len_wp hnew (by simp; omega) (by omega) ?_
    refine .inl ⟨ys, hy, rfl, ⟨hv'.alive, hcp, by simp; omega, hnew⟩, ⟨hkeep.1, fun b hb hbv => ⟨(hkeep.2 b hb).1, fun o => ?_⟩⟩, by rw [hyl]; exact hb'⟩
    rw [Mem.write_cell, if_neg (fun h => hkw b hb hbv h.1)]
    exact (hkeep.2 b hb).2 o
  · rintro m'' ⟨hn, hso⟩
    have keep : ∀ p zs, HasBytes m' p zs → (p.buf ≠ v'.buf ∨ p.off + zs.length ≤ v'.len) → HasBytes m'' p zs := by
      intro p zs hz hp
      refine ⟨by rw [hso.size]; exact hz.bound, fun i hi => ?_⟩
      rw [hso.cell _ _ (by
        rintro ⟨h1, h2, h3⟩
        simp only at h1 h2
        rcases hp with hp | hp
        · exact hp h1
        · omega), hz.get hi]
    refine .inr ⟨hn, rfl, ⟨by rw [hso.nbuf]; exact hv'.alive, by rw [hso.size]; exact hcp, hl, keep _ _ hv'.bytes (.inr (by simp only; omega))⟩,
      ⟨by rw [hso.nbuf]; exact hkeep.1, fun b hb hbv => ⟨by rw [hso.size]; exact (hkeep.2 b hb).1, fun o => ?_⟩⟩, hb'⟩
    rw [hso.cell _ _ (fun h => hkw b hb hbv h.1)]
    exact (hkeep.2 b hb).2 o

/-- The same without a failure path. -/
theorem append_total_any {P : Plat} {extra n : Nat} {v : RVec} {prev xs ys : List Byte} {m : Mem} {body : Ptr → Prog Unit} {p : Ptr}
    (hv : VecIs m v prev) (hx : HasBytes m p xs) (h0 : p.buf ≠ v.buf) (hm : p.buf < m.nbuf)
    (hcap : n ≤ v.cap - v.len ∨ v.len + n + extra ≤ P.isizeMax) (hcap' : v.cap ≤ P.isizeMax) {spec : List Byte → Option (List Byte)} (hs : spec xs = some ys)
    (hbody : ∀ m q, HasBytes m p xs → CanWrite m q n → p.buf ≠ q.buf → Does (body q) () spec xs q n m) :
    wp (do
      let buf ← v.reserve_exact P extra n
      padd ⟨buf.buf, 0⟩ buf.len
      body ⟨buf.buf, buf.len⟩
      buf.set_len (← liftO (P.addU buf.len n)))
      (fun v' m' => Spec.IsVec m' v' (prev ++ ys) ∧ Spec.Grown P ys.length m v m' v') (fun _ => False) m := by
  have h := append_any hv hx h0 hm hcap hcap' hbody
  simp only [wp_bind, wp_attempt] at h ⊢
  refine wp_mono h ?_ fun _ h => h
  intro v' m' h'
  rw [wp_padd] at h' ⊢
  refine ⟨h'.1, ?_⟩
  refine wp_mono h'.2 ?_ ?_
  · intro _ m'' h''
    refine wp_mono h'' ?_ fun _ h => h
    intro k m3 h3
    refine wp_mono h3 ?_ fun _ h => h
    rintro w m4 (⟨zs, hz, -, h1, h2⟩ | ⟨-, h, -⟩)
    · rw [hs] at hz; cases hz; exact ⟨h1, h2⟩
    · cases h
  · rintro m'' (⟨zs, hz, h, -⟩ | ⟨hn, -⟩)
    · cases h
    · rw [hs] at hn; cases hn

namespace DecApi
variable (A : DecApi)

theorem boxed_any_wp (P : Plat) {m : Mem} {p : Ptr} {xs : List Byte} (hx : HasBytes m p xs) (hp : p.buf < m.nbuf) (h : xs.length ≤ P.isizeMax) :
    wp (A.boxed P ⟨p, xs.length⟩) (fun s m' => ∃ ys, A.full xs = some ys ∧ Spec.NewBox m m' s ys ∧ Spec.Kept m m')
      (fun m' => A.full xs = none ∧ Spec.Kept m m') m := by
  unfold boxed
  simp only
  by_cases h0 : xs = []
  · subst h0
    rw [if_pos List.length_nil]
    exact wp_mono box_empty_wp (fun s m' h => ⟨[], A.full_nil, h⟩) (fun _ h => h.elim)
  · have hpos : 0 < xs.length := List.length_pos_iff.2 h0
    rw [if_neg (by omega), wp_bind]
    unfold wp
    rw [A.hD _ _ _ hx]
    cases hdl : A.dlen xs with
    | none => exact ⟨by rw [full, hdl]; rfl, .refl m⟩
    | some r =>
      obtain ⟨n, k⟩ := r
      have hle := A.hle _ _ _ hdl
      exact boxed_any (P := P) (n := k) (xs := xs) (spec := A.full) (body := fun q => A.body p q n) (hle.2.2 h0) (by omega) hp hx
        (fun m q hx hw hd => A.does hdl hx hw (.inl hd))

theorem append_any_wp (P : Plat) (extra : Nat) {m : Mem} {p : Ptr} {xs prev : List Byte} {v : RVec} (hx : HasBytes m p xs) (hp : p.buf < m.nbuf)
    (hv : VecIs m v prev) (h0 : p.buf ≠ v.buf) (hc : v.cap ≤ P.isizeMax)
    (hcap : ∀ n k, A.dlen xs = some (n, k) → k ≤ v.cap - v.len ∨ v.len + k + extra ≤ P.isizeMax) :
    wp (A.append P extra ⟨p, xs.length⟩ v)
      (fun (r : RVec × Except Unit Unit) m' => (∃ ys, A.full xs = some ys ∧ r.2 = .ok () ∧ Spec.IsVec m' r.1 (prev ++ ys) ∧ Spec.Grown P ys.length m v m' r.1) ∨
        (A.full xs = none ∧ r.2 = .error () ∧ Spec.IsVec m' r.1 prev ∧ Spec.Grown P xs.length m v m' r.1)) (fun _ => False) m := by
  unfold append
  simp only
  by_cases h00 : xs = []
  · subst h00
    rw [if_pos List.length_nil]
    exact .inl ⟨[], A.full_nil, rfl, by rw [List.append_nil]; exact hv.spec, .refl P _ m v⟩
  · have hpos : 0 < xs.length := List.length_pos_iff.2 h00
    rw [if_neg (by omega), wp_bind, wp_attempt]
    unfold wp
    rw [A.hD _ _ _ hx]
    cases hdl : A.dlen xs with
    | none => exact .inr ⟨by rw [full, hdl]; rfl, rfl, hv.spec, .refl P _ m v⟩
    | some r =>
      obtain ⟨n, k⟩ := r
      refine wp_mono (append_any (P := P) (extra := extra) (n := k) (spec := A.full) (body := fun q => A.body p q n)
        hv hx h0 hp (hcap n k hdl) hc (fun m q hx hw hd => A.does hdl hx hw (.inl hd))) ?_ fun _ h => h
      rintro r m' (h | ⟨h1, h2, h3, h4⟩)
      · exact .inl h
      · exact .inr ⟨h1, h2, h3, h4.mono (A.hle _ _ _ hdl).1⟩

theorem boxed_any_out (P : Plat) {m : Mem} {p : Ptr} {xs : List Byte} (hx : HasBytes m p xs) (hp : p.buf < m.nbuf) (h : xs.length ≤ P.isizeMax) :
    (∀ ys, A.full xs = some ys → ∃ s m', (A.boxed P ⟨p, xs.length⟩).run m = .ok s m' ∧ Spec.NewBox m m' s ys ∧ Spec.Kept m m') ∧
    (A.full xs = none → ∃ m', (A.boxed P ⟨p, xs.length⟩).run m = .err m' ∧ Spec.Kept m m') := by
  rcases wp_out (A.boxed_any_wp P hx hp h) with ⟨s, m', hr, zs, hz, hb, hk⟩ | ⟨m', hr, hn, hk⟩
  · refine ⟨fun ys hy => ?_, fun hn => by rw [hn] at hz; cases hz⟩
    rw [hy] at hz; cases hz
    exact ⟨s, m', hr, hb, hk⟩
  · exact ⟨fun ys hy => (by rw [hy] at hn; cases hn), fun _ => ⟨m', hr, hk⟩⟩

theorem toVec_any_out (P : Plat) {m : Mem} {p : Ptr} {xs : List Byte} (hx : HasBytes m p xs) (hp : p.buf < m.nbuf) (h : xs.length ≤ P.isizeMax) :
    (∀ ys, A.full xs = some ys → ∃ v m', (A.toVec P ⟨p, xs.length⟩).run m = .ok v m' ∧ Spec.NewVec m m' v ys ∧ Spec.Kept m m') ∧
    (A.full xs = none → ∃ m', (A.toVec P ⟨p, xs.length⟩).run m = .err m' ∧ Spec.Kept m m') := by
  have hb := A.boxed_any_out P hx hp h
  constructor
  · intro ys hy
    obtain ⟨s, m', hr, hn, hk⟩ := hb.1 ys hy
    exact ⟨_, m', by unfold toVec; rw [run_bind, hr]; rfl, hn.vec, hk⟩
  · intro hn
    obtain ⟨m', hr, hk⟩ := hb.2 hn
    exact ⟨m', by unfold toVec; rw [run_bind, hr], hk⟩

theorem append_any_out (P : Plat) (extra : Nat) {m : Mem} {p : Ptr} {xs prev : List Byte} {v : RVec} (hx : HasBytes m p xs) (hp : p.buf < m.nbuf)
    (hv : Spec.IsVec m v prev) (h0 : p.buf ≠ v.buf) (hc : v.cap ≤ P.isizeMax)
    (hcap : ∀ n k, A.dlen xs = some (n, k) → k ≤ v.cap - v.len ∨ v.len + k + extra ≤ P.isizeMax) :
    (∀ ys, A.full xs = some ys → ∃ v' m', (A.append P extra ⟨p, xs.length⟩ v).run m = .ok (v', .ok ()) m' ∧ Spec.IsVec m' v' (prev ++ ys) ∧ Spec.Grown P ys.length m v m' v') ∧
    (A.full xs = none → ∃ v' m', (A.append P extra ⟨p, xs.length⟩ v).run m = .ok (v', .error ()) m' ∧ Spec.IsVec m' v' prev ∧ Spec.Grown P xs.length m v m' v') := by
  rcases wp_out (A.append_any_wp P extra hx hp hv.is h0 hc hcap) with ⟨⟨v', e⟩, m', hr, hq⟩ | ⟨_, _, h⟩
  · rcases hq with ⟨zs, hz, he, hb, hk⟩ | ⟨hn, he, hb, hk⟩ <;> simp only at he <;> subst he
    · refine ⟨fun ys hy => ?_, fun hn => by rw [hn] at hz; cases hz⟩
      rw [hy] at hz; cases hz
      exact ⟨v', m', hr, hb, hk⟩
    · exact ⟨fun ys hy => (by rw [hy] at hn; cases hn), fun _ => ⟨v', m', hr, hb, hk⟩⟩
  · exact h.elim

end DecApi

namespace EncApi
variable (A : EncApi)

theorem boxed_any_wp (P : Plat) {m : Mem} {p : Ptr} {xs : List Byte} (hx : HasBytes m p xs) (hp : p.buf < m.nbuf) (h : (A.enc xs).length ≤ P.usizeMax / 2) :
    wp (A.boxed P ⟨p, xs.length⟩) (fun s m' => Spec.NewBox m m' s (A.enc xs) ∧ Spec.Kept m m') (fun _ => False) m := by
  have hu := isizeMax_le P
  have hl := A.hlen xs
  unfold boxed
  simp only
  by_cases h0 : xs = []
  · subst h0
    rw [if_pos List.length_nil, A.hnil]
    exact box_empty_wp
  · have hpos : 0 < xs.length := List.length_pos_iff.2 h0
    rw [if_neg (by omega), A.hL P _ (by omega)]
    have := boxed_any (P := P) (n := A.elen xs.length) (xs := xs) (spec := fun l => some (A.enc l))
      (body := fun q => A.body p xs.length q) (A.hpos _ hpos) (by omega) hp hx
      (fun m q hx hw hd => A.hbody m _ q xs hx hw (.inl hd))
    show wp (assert (decide (A.elen xs.length ≤ P.usizeMax / 2)) >>= _ : Prog Slice) _ _ _
    rw [decide_eq_true (by omega)]
    refine wp_mono this ?_ ?_
    · rintro s m' ⟨ys, hy, h⟩
      cases hy; exact h
    · rintro m' ⟨hn, _⟩
      cases hn

theorem append_any_wp (P : Plat) (extra : Nat) {m : Mem} {p : Ptr} {xs prev : List Byte} {v : RVec} (hx : HasBytes m p xs) (hp : p.buf < m.nbuf)
    (hv : VecIs m v prev) (h0 : p.buf ≠ v.buf) (hc : v.cap ≤ P.isizeMax) (h : (A.enc xs).length ≤ P.usizeMax / 2)
    (hcap : (A.enc xs).length ≤ v.cap - v.len ∨ v.len + (A.enc xs).length + extra ≤ P.isizeMax) :
    wp (A.append P extra ⟨p, xs.length⟩ v) (fun v' m' => Spec.IsVec m' v' (prev ++ A.enc xs) ∧ Spec.Grown P (A.enc xs).length m v m' v') (fun _ => False) m := by
  have hu := isizeMax_le P
  have hl := A.hlen xs
  unfold append
  simp only
  by_cases h00 : xs = []
  · subst h00
    rw [if_pos List.length_nil, A.hnil, List.append_nil]
    exact ⟨hv.spec, .refl P _ m v⟩
  · have hpos : 0 < xs.length := List.length_pos_iff.2 h00
    rw [if_neg (by omega), A.hL P _ (by omega)]
    have hw := append_total_any (P := P) (extra := extra) (n := A.elen xs.length) (spec := fun l => some (A.enc l)) (ys := A.enc xs)
      (body := fun q => A.body p xs.length q) hv hx h0 hp (by omega) hc rfl
      (fun m q hx hw hd => A.hbody m _ q xs hx hw (.inl hd))
    show wp (assert (decide (A.elen xs.length ≤ P.usizeMax / 2)) >>= _ : Prog RVec) _ _ _
    rw [decide_eq_true (by omega)]
    exact hw

theorem boxed_any_out (P : Plat) {m : Mem} {p : Ptr} {xs : List Byte} (hx : HasBytes m p xs) (hp : p.buf < m.nbuf) (hd : (A.enc xs).length ≤ P.usizeMax) :
    ((A.enc xs).length ≤ P.usizeMax / 2 → ∃ s m', (A.boxed P ⟨p, xs.length⟩).run m = .ok s m' ∧ Spec.NewBox m m' s (A.enc xs) ∧ Spec.Kept m m') ∧
    (P.usizeMax / 2 < (A.enc xs).length → (A.boxed P ⟨p, xs.length⟩).run m = .panic) := by
  refine ⟨fun h => ?_, fun h => ?_⟩
  · rcases wp_out (A.boxed_any_wp P hx hp h) with ⟨s, m', hr, hb, hk⟩ | ⟨_, _, h⟩
    · exact ⟨s, m', hr, hb, hk⟩
    · exact h.elim
  · have hl := A.hlen xs
    have hne : xs ≠ [] := by rintro rfl; rw [A.hnil] at h; simp at h
    have hpos : 0 < xs.length := List.length_pos_iff.2 hne
    unfold boxed
    simp only
    rw [if_neg (by omega), A.hL P _ (by omega)]
    show (assert (decide (A.elen xs.length ≤ P.usizeMax / 2)) >>= _ : Prog Slice).run _ = _
    rw [decide_eq_false (by omega)]; rfl

theorem toString_any_out (P : Plat) {m : Mem} {p : Ptr} {xs : List Byte} (hx : HasBytes m p xs) (hp : p.buf < m.nbuf) (hd : (A.enc xs).length ≤ P.usizeMax) :
    ((A.enc xs).length ≤ P.usizeMax / 2 → ∃ v m', (A.toString P ⟨p, xs.length⟩).run m = .ok v m' ∧ Spec.NewVec m m' v (A.enc xs) ∧ Spec.Kept m m') ∧
    (P.usizeMax / 2 < (A.enc xs).length → (A.toString P ⟨p, xs.length⟩).run m = .panic) := by
  have hb := A.boxed_any_out P hx hp hd
  constructor
  · intro h
    obtain ⟨s, m', hr, hn, hk⟩ := hb.1 h
    exact ⟨_, m', by unfold toString; rw [run_bind, hr]; rfl, hn.vec, hk⟩
  · intro h
    unfold toString; rw [run_bind, hb.2 h]

theorem append_any_out (P : Plat) (extra : Nat) {m : Mem} {p : Ptr} {xs prev : List Byte} {v : RVec} (hx : HasBytes m p xs) (hp : p.buf < m.nbuf)
    (hv : Spec.IsVec m v prev) (h0 : p.buf ≠ v.buf) (hc : v.cap ≤ P.isizeMax) (hd : (A.enc xs).length ≤ P.usizeMax) :
    ((A.enc xs).length ≤ P.usizeMax / 2 ∧ ((A.enc xs).length ≤ v.cap - v.len ∨ v.len + (A.enc xs).length + extra ≤ P.isizeMax) →
      ∃ v' m', (A.append P extra ⟨p, xs.length⟩ v).run m = .ok v' m' ∧ Spec.IsVec m' v' (prev ++ A.enc xs) ∧ Spec.Grown P (A.enc xs).length m v m' v') ∧
    (¬ ((A.enc xs).length ≤ P.usizeMax / 2 ∧ ((A.enc xs).length ≤ v.cap - v.len ∨ v.len + (A.enc xs).length + extra ≤ P.isizeMax)) →
      (A.append P extra ⟨p, xs.length⟩ v).run m = .panic) := by
  refine ⟨fun h => ?_, fun h => ?_⟩
  · rcases wp_out (A.append_any_wp P extra hx hp hv.is h0 hc h.1 h.2) with ⟨s, m', hr, hb, hk⟩ | ⟨_, _, h⟩
    · exact ⟨s, m', hr, hb, hk⟩
    · exact h.elim
  · have hl := A.hlen xs
    have hne : xs ≠ [] := by rintro rfl; rw [A.hnil] at h; simp at h
    have hpos : 0 < xs.length := List.length_pos_iff.2 hne
    unfold append
    simp only
    rw [if_neg (by omega), A.hL P _ (by omega)]
    show (assert (decide (A.elen xs.length ≤ P.usizeMax / 2)) >>= _ : Prog RVec).run _ = _
    by_cases hh : A.elen xs.length ≤ P.usizeMax / 2
    · rw [decide_eq_true hh]
      show (v.reserve_exact P extra (A.elen xs.length) >>= _ : Prog RVec).run _ = _
      unfold RVec.reserve_exact
      rw [if_neg (by omega), if_neg (by omega)]; rfl
    · rw [decide_eq_false hh]; rfl

end EncApi

end Simd
