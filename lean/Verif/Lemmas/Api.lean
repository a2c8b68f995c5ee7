import Verif.Lemmas.Run
import Verif.Spec.Setup
/-
The public functions of the base64 and base32 crates have the same shape; this file goes from the specifications of the
inner loops to exact statements about whole calls.
-/
namespace Simd

theorem canWrite_ofBufs {a ds : List Cell} {n} (h : n ≤ ds.length) : CanWrite (Mem.ofBufs [a, ds]) ⟨1, 0⟩ n := by
  unfold CanWrite; rw [ofBufs_size (l := ds) rfl]; simpa using h

theorem vecOf_is (xs prev : List Byte) (spare : List Cell) : VecIs (Mem.ofBufs [xs.map some, prev.map some ++ spare]) (vecOf prev spare) prev :=
  ⟨hasBytes_ofBufs rfl, rfl, by rw [ofBufs_size (l := prev.map some ++ spare) rfl]; simp [vecOf], by simp [vecOf, Mem.ofBufs]⟩

theorem view_copy (xs ys : List Byte) (ds : List Cell) (k : Nat) :
    (Mem.ofBufs [xs.map some, ys.map some ++ ds.drop k]).view (whole 1 ys.length) = ys.map some :=
  (hasBytes_ofBufs (b := 1) (xs := ys) rfl).view

theorem view_inplace (xs ys : List Byte) (k : Nat) :
    (Mem.ofBufs [(ys ++ xs.drop k).map some]).view (whole 0 ys.length) = ys.map some :=
  (hasBytes_ofBufs (b := 0) (xs := ys) (rest := (xs.drop k).map some) (by simp)).view

theorem map_some_inj {xs ys : List Byte} (h : xs.map some = ys.map some) : xs = ys :=
  List.map_inj_right (fun _ _ h => Option.some.inj h) |>.1 h

theorem run_alloc0 (xs : List Byte) : box_empty.run (Mem.ofBufs [xs.map some]) = .ok ⟨⟨1, 0⟩, 0⟩ (Mem.ofBufs [xs.map some, []]) := by
  show Out.ok _ ((Mem.ofBufs [xs.map some]).alloc 0) = _
  rw [ofBufs_alloc]; rfl

theorem wp_run_match {α : Type} {x : Prog α} {o : Option α} {m : Mem} :
    wp x (fun a m' => m' = m ∧ o = some a) (fun m' => m' = m ∧ o = none) m →
    x.run m = match o with
      | some r => .ok r m
      | none => .err m := by
  intro h
  rcases wp_out h with ⟨a, m', hr, rfl, rfl⟩ | ⟨m', hr, rfl, rfl⟩ <;> rw [hr]

/-! ### Decoding -/

/-- A decoder: `D` computes the number `n` of data characters and the number `k` of bytes, `body` decodes. -/
structure DecApi where
  dlen : List Byte → Option (Nat × Nat)
  D : Slice → Prog (Nat × Nat)
  body : Ptr → Ptr → Nat → Prog Unit
  chk : Ptr → Nat → Prog Unit
  spec : List Byte → Option (List Byte)
  hD : ∀ m p xs, HasBytes m p xs → (D ⟨p, xs.length⟩).run m = match dlen xs with
    | some r => .ok r m
    | none => .err m
  hle : ∀ xs n k, dlen xs = some (n, k) → k ≤ xs.length ∧ n ≤ xs.length ∧ (xs ≠ [] → 0 < k)
  hnil : dlen [] = some (0, 0)
  hspec : spec [] = some []
  hbody : ∀ m p q xs n k, dlen xs = some (n, k) → HasBytes m p xs → CanWrite m q k → Behind p q xs.length →
    Does (body p q n) () spec (xs.take n) q k m
  hchk : ∀ m p xs n k, dlen xs = some (n, k) → HasBytes m p xs → Checks (chk p n) () (fun l => (spec l).isSome) (xs.take n) m

namespace DecApi
variable (A : DecApi)

/-- The decoder as a function on texts. -/
def full (xs : List Byte) : Option (List Byte) := (A.dlen xs).bind fun r => A.spec (xs.take r.1)

theorem full_nil : A.full [] = some [] := by simp [full, A.hnil, A.hspec]

theorem does {m p q xs n k} (h : A.dlen xs = some (n, k)) (hx : HasBytes m p xs) (hw : CanWrite m q k)
    (hd : Behind p q xs.length) : Does (A.body p q n) () A.full xs q k m := by
  have := A.hbody m p q xs n k h hx hw hd
  have e : A.full xs = A.spec (xs.take n) := by rw [full, h]; rfl
  unfold Does Post Fail at this ⊢
  rw [e]; exact this

theorem full_len {xs n k ys} (h : A.dlen xs = some (n, k)) (hy : A.full xs = some ys) : ys.length = k := by
  have hk := A.hle xs n k h
  have h1 := A.does (m := Mem.ofBufs [xs.map some, List.replicate k none]) (p := ⟨0, 0⟩) (q := ⟨1, 0⟩) h (hasBytes_ofBufs' rfl)
    (canWrite_ofBufs (by simp)) (.inl (by simp))
  exact (h1.ok hy).1

theorem dlen_of_full {xs ys} (hy : A.full xs = some ys) : ∃ n, A.dlen xs = some (n, ys.length) ∧ n ≤ xs.length := by
  cases h : A.dlen xs with
  | none => simp [full, h] at hy
  | some r =>
    obtain ⟨n, k⟩ := r
    exact ⟨n, by rw [A.full_len h hy], (A.hle xs n k h).2.1⟩

theorem full_le {xs ys} (hy : A.full xs = some ys) : ys.length ≤ xs.length := by
  obtain ⟨n, h, _⟩ := A.dlen_of_full hy
  exact (A.hle xs _ _ h).1

/-- `decoded_length(data)`. -/
def lengthFn (data : Slice) : Prog Nat := do
  let (_, m) ← A.D data
  return m

theorem length_run (xs : List Byte) : (A.lengthFn (whole 0 xs.length)).run (Mem.ofBufs [xs.map some]) =
    match A.dlen xs with
    | some r => .ok r.2 (Mem.ofBufs [xs.map some])
    | none => .err (Mem.ofBufs [xs.map some]) := by
  unfold lengthFn whole
  rw [run_bind, A.hD _ _ _ (hasBytes_ofBufs' rfl)]
  cases A.dlen xs <;> rfl

/-- `decode(src, dst)`. -/
def decode (src dst : Slice) : Prog Slice := do
  let (n, m) ← A.D src
  ensure (dst.len ≥ m)
  A.body src.ptr dst.ptr n
  return ⟨dst.ptr, m⟩

theorem decode_run {xs n k} (ds : List Cell) (h : A.dlen xs = some (n, k)) (hk : k ≤ ds.length) :
    Does (A.decode (whole 0 xs.length) (whole 1 ds.length)) (whole 1 k) A.full xs ⟨1, 0⟩ k (Mem.ofBufs [xs.map some, ds]) := by
  have hb : HasBytes (Mem.ofBufs [xs.map some, ds]) ⟨0, 0⟩ xs := hasBytes_ofBufs' rfl
  have h1 := (A.does h hb (canWrite_ofBufs hk) (.inl (by simp))).ret (f := fun _ => (⟨⟨1, 0⟩, k⟩ : Slice))
  have hr := A.hD _ _ _ hb
  rw [h] at hr
  unfold Does at h1 ⊢
  unfold decode whole
  rw [wp_bind]
  unfold wp
  rw [hr]
  show wp (ensure (decide (ds.length ≥ k)) >>= _) _ _ _
  rw [wp_bind, wp_ensure, if_pos (by simpa using hk)]
  exact h1

theorem decode_ok {xs ys : List Byte} (ds : List Cell) (hy : A.full xs = some ys) (h : ys.length ≤ ds.length) :
    (A.decode (whole 0 xs.length) (whole 1 ds.length)).run (Mem.ofBufs [xs.map some, ds]) =
      .ok (whole 1 ys.length) (Mem.ofBufs [xs.map some, ys.map some ++ ds.drop ys.length]) := by
  obtain ⟨n, hn, _⟩ := A.dlen_of_full hy
  exact ((A.decode_run ds hn h).copy_ok h hy).2

theorem decode_err {xs : List Byte} (ds : List Cell) (h : A.full xs = none ∨ ∃ n k, A.dlen xs = some (n, k) ∧ ds.length < k) :
    ∃ ds', (A.decode (whole 0 xs.length) (whole 1 ds.length)).run (Mem.ofBufs [xs.map some, ds]) = .err (Mem.ofBufs [xs.map some, ds']) ∧
      ds'.length = ds.length ∧ (A.dlen xs = none → ds' = ds) ∧ ∀ n k, A.dlen xs = some (n, k) → ds'.drop k = ds.drop k ∧ (ds.length < k → ds' = ds) := by
  have hb : HasBytes (Mem.ofBufs [xs.map some, ds]) ⟨0, 0⟩ xs := hasBytes_ofBufs' rfl
  have hr := A.hD _ _ _ hb
  cases hdl : A.dlen xs with
  | none =>
    rw [hdl] at hr
    refine ⟨ds, ?_, rfl, fun _ => rfl, fun _ _ h => (by cases h)⟩
    unfold decode whole
    rw [run_bind, hr]
  | some r =>
    obtain ⟨n, k⟩ := r
    rw [hdl] at hr
    by_cases hk : k ≤ ds.length
    · have hn : A.full xs = none := by
        rcases h with h | ⟨n', k', h1, h2⟩
        · exact h
        · rw [hdl] at h1; cases h1; omega
      obtain ⟨ds', h1, h2, h3⟩ := (A.decode_run ds hdl hk).copy_err hk hn
      exact ⟨ds', h1, h2, fun h => (by cases h), fun n' k' h => by cases h; exact ⟨h3, by omega⟩⟩
    · refine ⟨ds, ?_, rfl, fun _ => rfl, fun _ _ _ => ⟨rfl, fun _ => rfl⟩⟩
      unfold decode whole
      rw [run_bind, hr]
      show (ensure (decide (ds.length ≥ k)) >>= _ : Prog Slice).run _ = _
      exact run_ensure_false (by simp; omega)

/-- `decode` succeeds with `ys` iff `full` gives `ys` (given room). -/
theorem decode_iff {xs : List Byte} (ys : List Byte) (ds : List Cell) (h : xs.length ≤ ds.length) :
    (∃ s m', (A.decode (whole 0 xs.length) (whole 1 ds.length)).run (Mem.ofBufs [xs.map some, ds]) = .ok s m' ∧ m'.view s = ys.map some) ↔
      A.full xs = some ys := by
  constructor
  · rintro ⟨s, m', hr, hv⟩
    cases hf : A.full xs with
    | none =>
      obtain ⟨_, h1, -⟩ := A.decode_err ds (.inl hf)
      rw [h1] at hr; cases hr
    | some zs =>
      have := A.full_le hf
      rw [A.decode_ok ds hf (by omega)] at hr
      cases hr
      rw [view_copy] at hv
      rw [map_some_inj hv]
  · intro hf
    have := A.full_le hf
    exact ⟨_, _, A.decode_ok ds hf (by omega), view_copy ..⟩

/-- `decode_inplace(data)`. -/
def inplace (data : Slice) : Prog Slice := do
  let (n, m) ← A.D data
  A.body data.ptr data.ptr n
  return ⟨data.ptr, m⟩

theorem inplace_run {xs n k} (h : A.dlen xs = some (n, k)) :
    Does (A.inplace (whole 0 xs.length)) (whole 0 k) A.full xs ⟨0, 0⟩ k (Mem.ofBufs [xs.map some]) := by
  have hb : HasBytes (Mem.ofBufs [xs.map some]) ⟨0, 0⟩ xs := hasBytes_ofBufs' rfl
  have hk := A.hle xs n k h
  have h1 := (A.does h hb (q := ⟨0, 0⟩) (by unfold CanWrite; rw [ofBufs_size (l := xs.map some) rfl]; simp; omega) (.inr (by simp))).ret (f := fun _ => (⟨⟨0, 0⟩, k⟩ : Slice))
  have hr := A.hD _ _ _ hb
  rw [h] at hr
  unfold Does at h1 ⊢
  unfold inplace whole
  rw [wp_bind]
  unfold wp
  rw [hr]
  exact h1

theorem inplace_ok {xs ys : List Byte} (hy : A.full xs = some ys) :
    (A.inplace (whole 0 xs.length)).run (Mem.ofBufs [xs.map some]) =
      .ok (whole 0 ys.length) (Mem.ofBufs [(ys ++ xs.drop ys.length).map some]) := by
  obtain ⟨n, hn, _⟩ := A.dlen_of_full hy
  exact ((A.inplace_run hn).inplace_ok (A.full_le hy) hy).2

theorem inplace_err {xs : List Byte} (h : A.full xs = none) :
    ∃ xs' : List Byte, (A.inplace (whole 0 xs.length)).run (Mem.ofBufs [xs.map some]) = .err (Mem.ofBufs [xs'.map some]) ∧
      xs'.length = xs.length ∧ (A.dlen xs = none → xs' = xs) ∧ ∀ n k, A.dlen xs = some (n, k) → xs'.drop k = xs.drop k := by
  have hb : HasBytes (Mem.ofBufs [xs.map some]) ⟨0, 0⟩ xs := hasBytes_ofBufs' rfl
  have hr := A.hD _ _ _ hb
  cases hdl : A.dlen xs with
  | none =>
    rw [hdl] at hr
    refine ⟨xs, ?_, rfl, fun _ => rfl, fun _ _ h => (by cases h)⟩
    unfold inplace whole
    rw [run_bind, hr]
  | some r =>
    obtain ⟨n, k⟩ := r
    obtain ⟨xs', h1, h2, h3⟩ := (A.inplace_run hdl).inplace_err (A.hle xs n k hdl).1 h
    exact ⟨xs', h1, h2, fun h => (by cases h), fun n' k' h => by cases h; exact h3⟩

theorem inplace_iff {xs : List Byte} (ys : List Byte) :
    (∃ s m', (A.inplace (whole 0 xs.length)).run (Mem.ofBufs [xs.map some]) = .ok s m' ∧ m'.view s = ys.map some) ↔ A.full xs = some ys := by
  constructor
  · rintro ⟨s, m', hr, hv⟩
    cases hf : A.full xs with
    | none =>
      obtain ⟨_, h1, -⟩ := A.inplace_err hf
      rw [h1] at hr; cases hr
    | some zs =>
      rw [A.inplace_ok hf] at hr
      cases hr
      rw [view_inplace] at hv
      rw [map_some_inj hv]
  · intro hf
    exact ⟨_, _, A.inplace_ok hf, view_inplace ..⟩

/-- `check(data)`. -/
def check (data : Slice) : Prog Unit := do
  let (n, _) ← A.D data
  A.chk data.ptr n

theorem check_run (xs : List Byte) : (A.check (whole 0 xs.length)).run (Mem.ofBufs [xs.map some]) =
    if (A.full xs).isSome then .ok () (Mem.ofBufs [xs.map some]) else .err (Mem.ofBufs [xs.map some]) := by
  have hb : HasBytes (Mem.ofBufs [xs.map some]) ⟨0, 0⟩ xs := hasBytes_ofBufs' rfl
  have hr := A.hD _ _ _ hb
  unfold check whole full
  rw [run_bind, hr]
  cases hdl : A.dlen xs with
  | none => rfl
  | some r =>
    obtain ⟨n, k⟩ := r
    have := A.hchk _ _ _ _ _ hdl hb
    simp only [Option.bind_some]
    split <;> rename_i hc
    · exact this.run_ok hc
    · exact this.run_err (by simpa using hc)

/-! Instances with the same function on texts behave alike. -/

theorem decode_same {A B : DecApi} (hf : ∀ xs, A.full xs = B.full xs) (hd : ∀ xs, A.dlen xs = B.dlen xs) (xs : List Byte) (ds : List Cell) (s m') :
    (A.decode (whole 0 xs.length) (whole 1 ds.length)).run (Mem.ofBufs [xs.map some, ds]) = .ok s m' ↔
    (B.decode (whole 0 xs.length) (whole 1 ds.length)).run (Mem.ofBufs [xs.map some, ds]) = .ok s m' := by
  cases h : A.full xs with
  | none =>
    obtain ⟨_, h1, -⟩ := A.decode_err ds (.inl h)
    obtain ⟨_, h2, -⟩ := B.decode_err ds (.inl (hf xs ▸ h))
    rw [h1, h2]
    exact ⟨fun h => (by cases h), fun h => (by cases h)⟩
  | some ys =>
    by_cases hl : ys.length ≤ ds.length
    · rw [A.decode_ok ds h hl, B.decode_ok ds (hf xs ▸ h) hl]
    · obtain ⟨n, hn, -⟩ := A.dlen_of_full h
      obtain ⟨_, h1, -⟩ := A.decode_err ds (.inr ⟨n, _, hn, by omega⟩)
      obtain ⟨_, h2, -⟩ := B.decode_err ds (.inr ⟨n, _, hd xs ▸ hn, by omega⟩)
      rw [h1, h2]
      exact ⟨fun h => (by cases h), fun h => (by cases h)⟩

theorem inplace_same {A B : DecApi} (hf : ∀ xs, A.full xs = B.full xs) (xs : List Byte) (s m') :
    (A.inplace (whole 0 xs.length)).run (Mem.ofBufs [xs.map some]) = .ok s m' ↔
    (B.inplace (whole 0 xs.length)).run (Mem.ofBufs [xs.map some]) = .ok s m' := by
  cases h : A.full xs with
  | none =>
    obtain ⟨_, h1, -⟩ := A.inplace_err h
    obtain ⟨_, h2, -⟩ := B.inplace_err (hf xs ▸ h)
    rw [h1, h2]
    exact ⟨fun h => (by cases h), fun h => (by cases h)⟩
  | some ys => rw [A.inplace_ok h, B.inplace_ok (hf xs ▸ h)]

theorem check_safe (xs : List Byte) : ((A.check (whole 0 xs.length)).run (Mem.ofBufs [xs.map some])).Safe := by
  rw [A.check_run]; split <;> trivial

theorem decode_safe (xs : List Byte) (ds : List Cell) :
    ((A.decode (whole 0 xs.length) (whole 1 ds.length)).run (Mem.ofBufs [xs.map some, ds])).Safe := by
  cases h : A.full xs with
  | none =>
    obtain ⟨_, h1, -⟩ := A.decode_err ds (.inl h)
    rw [h1]; trivial
  | some ys =>
    by_cases hl : ys.length ≤ ds.length
    · rw [A.decode_ok ds h hl]; trivial
    · obtain ⟨n, hn, -⟩ := A.dlen_of_full h
      obtain ⟨_, h1, -⟩ := A.decode_err ds (.inr ⟨n, _, hn, by omega⟩)
      rw [h1]; trivial

theorem inplace_safe (xs : List Byte) : ((A.inplace (whole 0 xs.length)).run (Mem.ofBufs [xs.map some])).Safe := by
  cases h : A.full xs with
  | none =>
    obtain ⟨_, h1, -⟩ := A.inplace_err h
    rw [h1]; trivial
  | some ys => rw [A.inplace_ok h]; trivial

/-- `decode_to_boxed_bytes(data)`. -/
def boxed (P : Plat) (data : Slice) : Prog Slice :=
  if data.len = 0 then box_empty
  else do
    let (n, m) ← A.D data
    let buf ← alloc_uninit_bytes P m
    A.body data.ptr buf.ptr n
    assume_init buf

theorem boxed_out (P : Plat) (xs : List Byte) (h : xs.length ≤ P.isizeMax) :
    let out := (A.boxed P (whole 0 xs.length)).run (Mem.ofBufs [xs.map some])
    (∀ ys, A.full xs = some ys → out = .ok (whole 1 ys.length) (Mem.ofBufs [xs.map some, ys.map some])) ∧
    (A.full xs = none → ∃ m', out = .err m') := by
  intro out
  have hout : out = (A.boxed P (whole 0 xs.length)).run (Mem.ofBufs [xs.map some]) := rfl
  unfold boxed whole at hout
  simp only at hout
  by_cases h0 : xs = []
  · subst h0
    rw [if_pos List.length_nil] at hout
    rw [hout]
    refine ⟨fun ys hy => ?_, fun hn => by rw [A.full_nil] at hn; cases hn⟩
    rw [A.full_nil] at hy; cases hy
    exact run_alloc0 []
  · have hpos : 0 < xs.length := List.length_pos_iff.2 h0
    rw [if_neg (by omega), run_bind, A.hD _ _ _ (hasBytes_ofBufs' rfl)] at hout
    cases hdl : A.dlen xs with
    | none =>
      rw [hdl] at hout
      have hn : A.full xs = none := by rw [full, hdl]; rfl
      exact ⟨fun ys hy => (by rw [hn] at hy; cases hy), fun _ => ⟨_, hout⟩⟩
    | some r =>
      obtain ⟨n, k⟩ := r
      rw [hdl] at hout
      have hle := A.hle _ _ _ hdl
      have hb := boxed_run (P := P) (n := k) (xs := xs) (spec := A.full) (body := fun q => A.body ⟨0, 0⟩ q n) (hle.2.2 h0) (by omega)
        (fun m q hx hw hd => A.does hdl hx hw (.inl hd))
      constructor
      · intro ys hy
        obtain ⟨h1, h2⟩ := hb.1 ys hy
        rw [hout, h1]; exact h2
      · intro hn
        obtain ⟨ds, h1⟩ := hb.2 hn
        exact ⟨_, hout.trans h1⟩

/-- `decode_to_vec(data)`. -/
def toVec (P : Plat) (data : Slice) : Prog RVec := do
  return .ofBox (← A.boxed P data)

theorem toVec_out (P : Plat) (xs : List Byte) (h : xs.length ≤ P.isizeMax) :
    let out := (A.toVec P (whole 0 xs.length)).run (Mem.ofBufs [xs.map some])
    (∀ ys, A.full xs = some ys → out = .ok ⟨1, ys.length, ys.length⟩ (Mem.ofBufs [xs.map some, ys.map some])) ∧
    (A.full xs = none → ∃ m', out = .err m') := by
  intro out
  have hb := A.boxed_out P xs h
  constructor
  · intro ys hy
    show (A.toVec P (whole 0 xs.length)).run _ = _
    unfold toVec
    rw [run_bind, hb.1 ys hy]; rfl
  · intro hn
    obtain ⟨m', h1⟩ := hb.2 hn
    refine ⟨m', ?_⟩
    show (A.toVec P (whole 0 xs.length)).run _ = _
    unfold toVec
    rw [run_bind, h1]

/-- `decode_append(data, vec)`. -/
def append (P : Plat) (extra : Nat) (src : Slice) (buf : RVec) : Prog (RVec × Except Unit Unit) :=
  if src.len = 0 then pure (buf, .ok ())
  else do
    match ← (A.D src).attempt with
    | none => pure (buf, .error ())
    | some (n, m) =>
      let buf ← buf.reserve_exact P extra m
      let prev_len := buf.len
      padd ⟨buf.buf, 0⟩ prev_len
      match ← (A.body src.ptr ⟨buf.buf, prev_len⟩ n).attempt with
      | none => pure (buf, .error ())
      | some _ =>
        let buf ← buf.set_len (← liftO (P.addU prev_len m))
        pure (buf, .ok ())

theorem append_out (P : Plat) (extra : Nat) (xs prev : List Byte) (spare : List Cell) (hv : prev.length + spare.length ≤ P.isizeMax)
    (hcap : ∀ n k, A.dlen xs = some (n, k) → k ≤ spare.length ∨ prev.length + k + extra ≤ P.isizeMax) :
    let out := (A.append P extra (whole 0 xs.length) (vecOf prev spare)).run (Mem.ofBufs [xs.map some, prev.map some ++ spare])
    (∀ ys, A.full xs = some ys → ∃ v' m', out = .ok (v', .ok ()) m' ∧ m'.view v'.slice = (prev ++ ys).map some) ∧
    (A.full xs = none → ∃ v' m', out = .ok (v', .error ()) m' ∧ m'.view v'.slice = prev.map some) := by
  intro out
  have hout : out = (A.append P extra (whole 0 xs.length) (vecOf prev spare)).run (Mem.ofBufs [xs.map some, prev.map some ++ spare]) := rfl
  unfold append whole at hout
  simp only at hout
  by_cases h0 : xs = []
  · subst h0
    rw [if_pos List.length_nil] at hout
    refine ⟨fun ys hy => ?_, fun hn => by rw [A.full_nil] at hn; cases hn⟩
    rw [A.full_nil] at hy; cases hy
    exact ⟨_, _, hout, by rw [(vecOf_is [] prev spare).view]; simp⟩
  · have hpos : 0 < xs.length := List.length_pos_iff.2 h0
    rw [if_neg (by omega), run_bind, run_attempt, A.hD _ _ _ (hasBytes_ofBufs' rfl)] at hout
    cases hdl : A.dlen xs with
    | none =>
      rw [hdl] at hout
      have hn : A.full xs = none := by rw [full, hdl]; rfl
      exact ⟨fun ys hy => (by rw [hn] at hy; cases hy), fun _ => ⟨_, _, hout, (vecOf_is xs prev spare).view⟩⟩
    | some r =>
      obtain ⟨n, k⟩ := r
      rw [hdl] at hout
      have hc := hcap n k hdl
      have hw := append_wp (P := P) (extra := extra) (n := k) (spec := A.full) (body := fun q => A.body ⟨0, 0⟩ q n)
        (vecOf_is xs prev spare) (xs := xs) (hasBytes_ofBufs' rfl) (by simp [vecOf]) (by simp [Mem.ofBufs])
        (by simp only [vecOf]; omega) hv
        (fun m q hx hw hd => A.does hdl hx hw (.inl hd))
        (Q := fun r m' => (∃ ys, A.full xs = some ys ∧ r.2 = .ok () ∧ m'.view r.1.slice = (prev ++ ys).map some) ∨
          (A.full xs = none ∧ r.2 = .error () ∧ m'.view r.1.slice = prev.map some)) (E := fun _ => False)
        (fun v' m' ys hy hv' _ => .inl ⟨ys, hy, rfl, hv'.view⟩) (fun v' m' hn hv' _ => .inr ⟨hn, rfl, hv'.view⟩)
      rcases wp_out hw with ⟨r, m', hr, hq⟩ | ⟨_, _, h⟩
      · replace hout := hout.trans hr
        obtain ⟨v', e⟩ := r
        constructor
        · intro ys hy
          rcases hq with ⟨zs, hz, he2, hview⟩ | ⟨hn, -⟩
          · rw [hy] at hz
            cases hz
            simp only at he2
            subst he2
            exact ⟨_, _, hout, hview⟩
          · rw [hy] at hn; cases hn
        · intro hn
          rcases hq with ⟨zs, hz, -⟩ | ⟨-, he2, hview⟩
          · rw [hn] at hz; cases hz
          · simp only at he2
            subst he2
            exact ⟨_, _, hout, hview⟩
      · exact h.elim

end DecApi

/-! ### Encoding -/

/-- An encoder: `L` computes the encoded length with overflow checks, `body` encodes. -/
structure EncApi where
  elen : Nat → Nat
  L : Plat → Nat → Option Nat
  body : Ptr → Nat → Ptr → Prog Unit
  enc : List Byte → List Byte
  hL : ∀ P n, elen n ≤ P.usizeMax → L P n = some (elen n)
  hlen : ∀ xs, (enc xs).length = elen xs.length
  hnil : enc [] = []
  hpos : ∀ n, 0 < n → 0 < elen n
  hbody : ∀ m p q xs, HasBytes m p xs → CanWrite m q (elen xs.length) → Apart p q xs.length (elen xs.length) →
    Does (body p xs.length q) () (fun l => some (enc l)) xs q (elen xs.length) m

namespace EncApi
variable (A : EncApi)

/-- `encode(src, dst)`. -/
def encode (P : Plat) (src dst : Slice) : Prog Slice := do
  let m ← liftO (A.L P src.len)
  ensure (dst.len ≥ m)
  A.body src.ptr src.len dst.ptr
  return ⟨dst.ptr, m⟩

theorem encode_ok (P : Plat) (xs : List Byte) (ds : List Cell) (h : (A.enc xs).length ≤ ds.length) (hd : (A.enc xs).length ≤ P.usizeMax) :
    (A.encode P (whole 0 xs.length) (whole 1 ds.length)).run (Mem.ofBufs [xs.map some, ds]) =
      .ok (whole 1 (A.enc xs).length) (Mem.ofBufs [xs.map some, (A.enc xs).map some ++ ds.drop (A.enc xs).length]) := by
  have hl := A.hlen xs
  rw [hl] at h hd
  unfold encode whole
  simp only
  rw [A.hL P _ hd]
  have h1 := ((A.hbody (Mem.ofBufs [xs.map some, ds]) ⟨0, 0⟩ ⟨1, 0⟩ xs (hasBytes_ofBufs' rfl) (canWrite_ofBufs h) (.inl (by simp))).ret
    (f := fun _ => (⟨⟨1, 0⟩, A.elen xs.length⟩ : Slice))).copy_ok h rfl
  show (ensure (decide (ds.length ≥ A.elen xs.length)) >>= _ : Prog Slice).run _ = _
  rw [decide_eq_true h, hl]
  exact h1.2

theorem encode_err (P : Plat) (xs : List Byte) (ds : List Cell) (h : ds.length < (A.enc xs).length) (hd : (A.enc xs).length ≤ P.usizeMax) :
    (A.encode P (whole 0 xs.length) (whole 1 ds.length)).run (Mem.ofBufs [xs.map some, ds]) = .err (Mem.ofBufs [xs.map some, ds]) := by
  have hl := A.hlen xs
  rw [hl] at h hd
  unfold encode whole
  simp only
  rw [A.hL P _ hd]
  exact run_ensure_false (by simp; omega)

theorem encode_safe (P : Plat) (xs : List Byte) (ds : List Cell) (hd : (A.enc xs).length ≤ P.usizeMax) :
    ((A.encode P (whole 0 xs.length) (whole 1 ds.length)).run (Mem.ofBufs [xs.map some, ds])).Safe := by
  by_cases h : (A.enc xs).length ≤ ds.length
  · rw [A.encode_ok P xs ds h hd]; trivial
  · rw [A.encode_err P xs ds (by omega) hd]; trivial

/-- `encode_to_boxed_str(data)`. -/
def boxed (P : Plat) (data : Slice) : Prog Slice :=
  if data.len = 0 then box_empty
  else do
    let m ← liftO (A.L P data.len)
    assert (m ≤ P.usizeMax / 2)
    let buf ← alloc_uninit_bytes P m
    A.body data.ptr data.len buf.ptr
    assume_init buf

theorem boxed_out (P : Plat) (xs : List Byte) (hd : (A.enc xs).length ≤ P.usizeMax) :
    (A.boxed P (whole 0 xs.length)).run (Mem.ofBufs [xs.map some]) =
      if (A.enc xs).length ≤ P.usizeMax / 2 then .ok (whole 1 (A.enc xs).length) (Mem.ofBufs [xs.map some, (A.enc xs).map some]) else .panic := by
  have hu := isizeMax_le P
  have hl := A.hlen xs
  unfold boxed whole
  by_cases h0 : xs = []
  · subst h0
    rw [if_pos List.length_nil, A.hnil]
    exact run_alloc0 []
  · have hpos : 0 < xs.length := List.length_pos_iff.2 h0
    simp only
    rw [if_neg (by omega), A.hL P _ (by omega), hl]
    split <;> rename_i hc
    · have := (boxed_run (P := P) (n := A.elen xs.length) (xs := xs) (spec := fun l => some (A.enc l))
        (body := fun q => A.body ⟨0, 0⟩ xs.length q) (A.hpos _ hpos) (by omega)
        (fun m q hx hw hd => A.hbody m _ q xs hx hw (.inl hd))).1 _ rfl
      show (assert (decide (A.elen xs.length ≤ P.usizeMax / 2)) >>= _ : Prog Slice).run _ = _
      rw [decide_eq_true hc]
      exact this.2
    · show (assert (decide (A.elen xs.length ≤ P.usizeMax / 2)) >>= _ : Prog Slice).run _ = _
      rw [decide_eq_false hc]; rfl

/-- `encode_to_string(data)`. -/
def toString (P : Plat) (data : Slice) : Prog RVec := do
  return .ofBox (← A.boxed P data)

theorem toString_out (P : Plat) (xs : List Byte) (hd : (A.enc xs).length ≤ P.usizeMax) :
    (A.toString P (whole 0 xs.length)).run (Mem.ofBufs [xs.map some]) =
      if (A.enc xs).length ≤ P.usizeMax / 2 then
        .ok ⟨1, (A.enc xs).length, (A.enc xs).length⟩ (Mem.ofBufs [xs.map some, (A.enc xs).map some])
      else .panic := by
  unfold toString
  rw [run_bind, A.boxed_out P xs hd]
  by_cases h : (A.enc xs).length ≤ P.usizeMax / 2
  · simp only [if_pos h]; rfl
  · simp only [if_neg h]

/-- `encode_append(data, vec)`. -/
def append (P : Plat) (extra : Nat) (src : Slice) (buf : RVec) : Prog RVec :=
  if src.len = 0 then pure buf
  else do
    let m ← liftO (A.L P src.len)
    assert (m ≤ P.usizeMax / 2)
    let buf ← buf.reserve_exact P extra m
    let prev_len := buf.len
    padd ⟨buf.buf, 0⟩ prev_len
    A.body src.ptr src.len ⟨buf.buf, prev_len⟩
    buf.set_len (← liftO (P.addU prev_len m))

theorem append_out (P : Plat) (extra : Nat) (xs prev : List Byte) (spare : List Cell) (hx : (A.enc xs).length ≤ P.usizeMax / 2)
    (hv : prev.length + spare.length ≤ P.isizeMax)
    (hcap : (A.enc xs).length ≤ spare.length ∨ prev.length + (A.enc xs).length + extra ≤ P.isizeMax) :
    ∃ v' m', (A.append P extra (whole 0 xs.length) (vecOf prev spare)).run (Mem.ofBufs [xs.map some, prev.map some ++ spare]) = .ok v' m' ∧
      m'.view v'.slice = (prev ++ A.enc xs).map some := by
  have hu := isizeMax_le P
  have hl := A.hlen xs
  unfold append whole
  by_cases h0 : xs = []
  · subst h0
    refine ⟨_, _, rfl, ?_⟩
    rw [(vecOf_is [] prev spare).view, A.hnil]; simp
  · have hpos : 0 < xs.length := List.length_pos_iff.2 h0
    simp only
    rw [if_neg (by omega), A.hL P _ (by omega)]
    have hw := append_total_wp (P := P) (extra := extra) (n := A.elen xs.length) (spec := fun l => some (A.enc l)) (ys := A.enc xs)
      (body := fun q => A.body ⟨0, 0⟩ xs.length q)
      (vecOf_is xs prev spare) (xs := xs) (hasBytes_ofBufs' rfl) (by simp [vecOf]) (by simp [Mem.ofBufs])
      (by simp only [vecOf]; omega) hv rfl
      (fun m q hx hw hd => A.hbody m _ q xs hx hw (.inl hd))
      (Q := fun v' m' => m'.view v'.slice = (prev ++ A.enc xs).map some) (E := fun _ => False)
      (fun v' m' hv' _ => hv'.view)
    rcases wp_out hw with ⟨r, m', hr, hq⟩ | ⟨_, _, h⟩
    · refine ⟨r, m', ?_, hq⟩
      show (assert (decide (A.elen xs.length ≤ P.usizeMax / 2)) >>= _ : Prog RVec).run _ = _
      rw [decide_eq_true (by omega)]
      exact hr
    · exact h.elim

end EncApi

end Simd
