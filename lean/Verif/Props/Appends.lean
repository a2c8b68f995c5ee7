import Verif.Model.Appends
import Verif.Spec.Format
import Verif.Props.AnywhereHeap
import Verif.Props.Chunks
/-
C75: any sequence of appending calls on one vector.
-/
namespace Simd

theorem Base64.le_encLen (pad : Bool) (n : Nat) : n ≤ encLen pad n := by
  unfold encLen; split_ifs <;> omega

theorem Base32.le_encLen (pad : Bool) (n : Nat) : n ≤ encLen pad n := by
  have : n % 5 = 0 ∨ n % 5 = 1 ∨ n % 5 = 2 ∨ n % 5 = 3 ∨ n % 5 = 4 := by omega
  unfold encLen
  rcases this with h | h | h | h | h <;> rw [h] <;> cases pad <;> simp [tailLen] <;> omega

/-- The call performs the operation, with an implementation the crates dispatch to. -/
def AppendCall.Performs : AppendCall → Spec.Op → Prop
  | .base64Encode i config, .encode (.base64 url pad) => i ≠ some .sse2 ∧ Base64.IsVariant config url pad
  | .base64Decode i config, .decode (.base64 url pad) => i ≠ some .sse2 ∧ Base64.IsVariant config url pad
  | .base32Encode _ i config, .encode (.base32 hex pad) => Base32.Impl i ∧ Base32.IsVariant config hex pad
  | .base32Decode _ i config, .decode (.base32 hex pad) => Base32.Impl i ∧ Base32.IsVariant config hex pad
  | .hexEncode _ case, .encode (.hex upper) => upper = (case == .upper)
  | .hexDecode _, .decode (.hex _) => True
  | _, _ => False

/-- One call: it reports what the operation says and appends exactly the bytes the operation says. -/
theorem append_step (P : Plat) {c : AppendCall} {op : Spec.Op} (hc : c.Performs op) (extra : Nat) (m : Mem) (p : Ptr) (xs : List Byte)
    (hr : Spec.Reads m p xs) (hp : p.buf < m.nbuf) (v : RVec) (prev : List Byte) (hvec : Spec.IsVec m v prev) (hne : p.buf ≠ v.buf)
    (hx : xs.length ≤ P.isizeMax) (hcap : v.cap ≤ P.isizeMax) (hfit : prev.length + op.bound xs + extra ≤ P.isizeMax) :
    ∃ r ys v' m', (c.call P extra ⟨p, xs.length⟩ v).run m = .ok (v', r) m' ∧ op.Appends xs r ys ∧ ys.length ≤ op.bound xs ∧
      Spec.IsVec m' v' (prev ++ ys) ∧ Spec.Grown P (op.bound xs) m v m' v' := by
  have hl : v.len = prev.length := hvec.2.2.1
  have hu := isizeMax_le P
  have hu2 : P.isizeMax ≤ P.usizeMax / 2 := by omega
  match c, op, hc with
  | .base64Encode i config, .encode (.base64 url pad), ⟨hi, hv⟩ =>
    have hfit : prev.length + (Spec.base64 url pad xs).length + extra ≤ P.isizeMax := hfit
    obtain ⟨v', m', h1, h2, h3⟩ := (Base64.C61_encode_append P extra hi hv m p xs hr hp hx v prev hvec hne hcap).1 ⟨by omega, .inr (by omega)⟩
    exact ⟨.ok (), _, v', m', by unfold AppendCall.call; rw [run_bind, h1]; rfl, rfl, Nat.le_refl _, h2, h3⟩
  | .base32Encode w i config, .encode (.base32 hex pad), ⟨hi, hv⟩ =>
    have hfit : prev.length + (Spec.base32 hex pad xs).length + extra ≤ P.isizeMax := hfit
    obtain ⟨v', m', h1, h2, h3⟩ := (Base32.C61_encode_append P w extra hi hv m p xs hr hp hx v prev hvec hne hcap).1 ⟨by omega, .inr (by omega)⟩
    exact ⟨.ok (), _, v', m', by unfold AppendCall.call; rw [run_bind, h1]; rfl, rfl, Nat.le_refl _, h2, h3⟩
  | .hexEncode i case, .encode (.hex upper), hu' =>
    cases hu'
    have hfit : prev.length + (Spec.hexEncode (case == .upper) xs).length + extra ≤ P.isizeMax := hfit
    obtain ⟨v', m', h1, h2, h3⟩ := (Hex.C61_encode_append P extra i case m p xs hr hp hx v prev hvec hne hcap).1 ⟨by omega, .inr (by omega)⟩
    exact ⟨.ok (), _, v', m', by unfold AppendCall.call; rw [run_bind, h1]; rfl, rfl, Nat.le_refl _, h2, h3⟩
  | .base64Decode i config, .decode (.base64 url pad), ⟨hi, hv⟩ =>
    have hfit : prev.length + xs.length + extra ≤ P.isizeMax := hfit
    have h := Base64.C61_decode_append P extra hi hv m p xs hr hp v prev hvec hne hcap (.inr (by omega))
    by_cases hd : ∃ ys, Spec.base64 url pad ys = xs
    · obtain ⟨ys, hy⟩ := hd
      obtain ⟨v', m', h1, h2, h3⟩ := h.1 ys hy
      have hle : ys.length ≤ xs.length := by rw [← hy, Base64.base64_length]; exact Base64.le_encLen pad _
      exact ⟨.ok (), ys, v', m', h1, hy, hle, h2, h3.mono hle⟩
    · obtain ⟨v', m', h1, h2, h3⟩ := h.2 hd
      exact ⟨.error (), [], v', m', h1, ⟨hd, rfl⟩, Nat.zero_le _, by rwa [List.append_nil], h3⟩
  | .base32Decode w i config, .decode (.base32 hex pad), ⟨hi, hv⟩ =>
    have hfit : prev.length + xs.length + extra ≤ P.isizeMax := hfit
    have h := Base32.C61_decode_append P w extra hi hv m p xs hr hp v prev hvec hne hcap (.inr (by omega))
    by_cases hd : ∃ ys, Spec.base32 hex pad ys = xs
    · obtain ⟨ys, hy⟩ := hd
      obtain ⟨v', m', h1, h2, h3⟩ := h.1 ys hy
      have hle : ys.length ≤ xs.length := by rw [← hy, Base32.base32_length]; exact Base32.le_encLen pad _
      exact ⟨.ok (), ys, v', m', h1, hy, hle, h2, h3.mono hle⟩
    · obtain ⟨v', m', h1, h2, h3⟩ := h.2 hd
      exact ⟨.error (), [], v', m', h1, ⟨hd, rfl⟩, Nat.zero_le _, by rwa [List.append_nil], h3⟩
  | .hexDecode i, .decode (.hex _), _ =>
    have hfit : prev.length + xs.length + extra ≤ P.isizeMax := hfit
    have h := Hex.C61_decode_append P extra i m p xs hr hp v prev hvec hne hcap (.inr (by omega))
    by_cases hd : ∃ ys, Spec.IsHexOf xs ys
    · obtain ⟨ys, hy⟩ := hd
      obtain ⟨v', m', h1, h2, h3⟩ := h.1 ys hy
      have hle : ys.length ≤ xs.length := by have := Hex.isHexOf_length hy; omega
      exact ⟨.ok (), ys, v', m', h1, hy, hle, h2, h3.mono hle⟩
    · obtain ⟨v', m', h1, h2, h3⟩ := h.2 hd
      exact ⟨.error (), [], v', m', h1, ⟨hd, rfl⟩, Nat.zero_le _, by rwa [List.append_nil], h3⟩


/-- The sum of what the calls may need. -/
def appendRoom : List (AppendJob × Spec.Op × List Byte) → Nat
  | [] => 0
  | (j, op, xs) :: r => op.bound xs + j.extra + appendRoom r

/-- Each call reads its source (`xs`) from an allocation other than the vector's and performs its operation. -/
def Admissible (P : Plat) (m : Mem) (v : RVec) (l : List (AppendJob × Spec.Op × List Byte)) : Prop :=
  ∀ j op xs, (j, op, xs) ∈ l → j.call.Performs op ∧ j.src.len = xs.length ∧ Spec.Reads m j.src.ptr xs ∧ j.src.ptr.buf < m.nbuf ∧
    j.src.ptr.buf ≠ v.buf ∧ xs.length ≤ P.isizeMax

/-- The outcome of a list of calls: one report and one list of added bytes per call, each as its operation says. -/
def Outcomes : List (AppendJob × Spec.Op × List Byte) → List (Except Unit Unit) → List (List Byte) → Prop
  | [], [], [] => True
  | (_, op, xs) :: l, r :: rs, ys :: yss => op.Appends xs r ys ∧ Outcomes l rs yss
  | _, _, _ => False

/-- C75: any number of appending calls, in any formats and with any implementations, on one vector. If the vector can hold everything, the client finishes; every call
reports what its operation says; the vector then holds its first content followed by what the calls add, in order, failed calls adding nothing;
and no allocation of the start but the vector's own has changed. -/
theorem C75_appends (P : Plat) (l : List (AppendJob × Spec.Op × List Byte)) (m : Mem) (v : RVec) (prev : List Byte) (hvec : Spec.IsVec m v prev)
    (hcap : v.cap ≤ P.isizeMax) (hl : Admissible P m v l) (hfit : prev.length + appendRoom l ≤ P.isizeMax) :
    ∃ v' m' rs yss, (appendAll P (l.map (·.1)) v).run m = .ok (v', rs) m' ∧ Outcomes l rs yss ∧ Spec.IsVec m' v' (prev ++ yss.flatten) ∧
      Spec.KeptBut m m' v.buf ∧ v'.cap ≤ P.isizeMax ∧ (v'.buf = v.buf ∧ v'.cap = v.cap ∨ m.nbuf ≤ v'.buf ∧ v.cap < v'.cap) := by
  induction l generalizing m v prev with
  | nil => exact ⟨v, m, [], [], rfl, trivial, by simpa using hvec, .refl m _, hcap, .inl ⟨rfl, rfl⟩⟩
  | cons x l ih =>
    obtain ⟨⟨c, s, extra⟩, op, xs⟩ := x
    obtain ⟨h1, h2, h3, h4, h5, h6⟩ := hl _ _ _ (List.mem_cons_self ..)
    obtain ⟨p, n⟩ := s
    dsimp only at h1 h2 h3 h4 h5
    subst h2
    rw [appendRoom] at hfit
    dsimp only at hfit
    obtain ⟨r, ys, v1, m1, hr, ha, hle, hv1, hk1, hg1⟩ := append_step P h1 extra m p xs h3 h4 v prev hvec h5 h6 hcap (by omega)
    have hb : v1.buf = v.buf ∨ m.nbuf ≤ v1.buf := hg1.imp And.left And.left
    have hcap1 : v1.cap ≤ P.isizeMax := by
      rcases hg1 with ⟨-, h⟩ | ⟨-, -, -, h⟩
      · omega
      · exact h
    obtain ⟨v2, m2, rs, yss, hr2, ho, hv2, hk2, hc2, hg2⟩ := ih m1 v1 (prev ++ ys) hv1 hcap1 (fun j op' zs hj => by
      obtain ⟨g1, g2, g3, g4, g5, g6⟩ := hl j op' zs (List.mem_cons_of_mem _ hj)
      have := hk1.1
      exact ⟨g1, g2, hk1.has g4 g5 g3.has, by omega, by omega, g6⟩) (by rw [List.length_append]; omega)
    refine ⟨v2, m2, r :: rs, ys :: yss, ?_, ⟨ha, ho⟩, by simpa using hv2, ⟨Nat.le_trans hk1.1 hk2.1, fun b hb1 hb2 => ?_⟩, hc2, ?_⟩
    · rw [List.map_cons, appendAll, run_bind, hr]
      show Prog.run (_ >>= _) m1 = _
      rw [run_bind, hr2]; rfl
    · have h7 := hk1.2 b hb1 hb2
      have h8 := hk2.2 b (by have := hk1.1; omega) (by omega)
      exact ⟨h8.1.trans h7.1, fun o => (h8.2 o).trans (h7.2 o)⟩
    · have := hk1.1
      rcases hg1 with ⟨g1, g2⟩ | ⟨g1, -, g2, -⟩ <;> rcases hg2 with ⟨g3, g4⟩ | ⟨g3, g4⟩ <;> omega

/-- Every text of every format is ASCII. -/
theorem Format.ascii (f : Spec.Format) (xs : List Byte) : ∀ c ∈ f.text xs, c.toNat < 0x80 := by
  cases f with
  | base64 url pad => exact fun c hc => (Base64.C17_alphabet url pad xs c hc).2
  | base32 ext pad => exact fun c hc => (Base32.C28_alphabet ext pad xs c hc).2
  | hex upper => exact Hex.C37_ascii upper xs

/-- C75 for a `String` (`as_mut_vec` in base64-simd heap.rs:165-170, base32-simd heap.rs:161-166, hex-simd heap.rs:159-164): after any number of encoding calls
the content is still UTF-8. -/
theorem C75_string (P : Plat) (l : List (AppendJob × Spec.Op × List Byte)) (m : Mem) (v : RVec) (prev : List Byte) (hvec : Spec.IsVec m v prev)
    (hcap : v.cap ≤ P.isizeMax) (hl : Admissible P m v l) (hfit : prev.length + appendRoom l ≤ P.isizeMax) (hutf : Spec.ValidUtf8 prev)
    (henc : ∀ j op xs, (j, op, xs) ∈ l → ∃ f, op = .encode f) :
    ∃ v' m' rs text, (appendAll P (l.map (·.1)) v).run m = .ok (v', rs) m' ∧ (∀ r ∈ rs, r = .ok ()) ∧ Spec.IsVec m' v' text ∧ Spec.ValidUtf8 text := by
  obtain ⟨v', m', rs, yss, h1, h2, h3, -⟩ := C75_appends P l m v prev hvec hcap hl hfit
  have key : ∀ (l : List (AppendJob × Spec.Op × List Byte)) rs yss, Outcomes l rs yss → (∀ j op xs, (j, op, xs) ∈ l → ∃ f, op = .encode f) →
      (∀ r ∈ rs, r = .ok ()) ∧ Spec.ValidUtf8 yss.flatten := by
    intro l
    induction l with
    | nil =>
      intro rs yss h _
      match rs, yss, h with
      | [], [], _ => exact ⟨by simp, .ascii (by simp)⟩
    | cons x l ih =>
      intro rs yss h he
      match x, rs, yss, h with
      | (j, op, xs), r :: rs, ys :: yss, ⟨ha, ho⟩ =>
        obtain ⟨f, rfl⟩ := he j op xs (List.mem_cons_self ..)
        obtain ⟨i1, i2⟩ := ih rs yss ho fun j op xs hm => he j op xs (List.mem_cons_of_mem _ hm)
        match r, ha with
        | .ok (), ha =>
          cases ha
          refine ⟨fun r hr => ?_, ?_⟩
          · rcases List.mem_cons.1 hr with rfl | hr
            · rfl
            · exact i1 r hr
          · rw [List.flatten_cons]
            exact (Spec.ValidUtf8.ascii (Format.ascii f xs)).append i2
  obtain ⟨k1, k2⟩ := key l rs yss h2 henc
  exact ⟨v', m', rs, _, h1, k1, h3, hutf.append k2⟩

/-- The hypotheses of C75 are met: the two bytes `AB` are read from the middle of one allocation, the vector is in another; they are encoded as base64,
decoded as hexadecimal, and decoded as padded base32, which fails. -/
def appendExample : List (AppendJob × Spec.Op × List Byte) :=
  [(⟨.base64Encode (some .avx2) Base64.STANDARD, ⟨⟨0, 1⟩, 2⟩, 3⟩, .encode (.base64 false true), [0x41#8, 0x42#8]),
   (⟨.hexDecode (some .sse41), ⟨⟨0, 1⟩, 2⟩, 0⟩, .decode (.hex false), [0x41#8, 0x42#8]),
   (⟨.base32Decode true none Base32.BASE32, ⟨⟨0, 1⟩, 2⟩, 0⟩, .decode (.base32 false true), [0x41#8, 0x42#8])]

example : let P : Plat := ⟨64, by omega⟩
    Spec.IsVec heapMem ⟨1, 1, 3⟩ [0x78#8] ∧ (⟨1, 1, 3⟩ : RVec).cap ≤ P.isizeMax ∧ Admissible P heapMem ⟨1, 1, 3⟩ appendExample ∧
    [0x78#8].length + appendRoom appendExample ≤ P.isizeMax ∧ Spec.ValidUtf8 [0x78#8] := by
  refine ⟨⟨by decide, by decide, by decide, by decide, ?_⟩, by decide, ?_, by decide, .ascii (by decide)⟩
  · intro i h
    have : i = 0 := by simp at h; omega
    subst this; rfl
  · have hr : Spec.Reads heapMem ⟨0, 1⟩ [0x41#8, 0x42#8] := by
      refine ⟨by decide, fun i h => ?_⟩
      have : i = 0 ∨ i = 1 := by simp at h; omega
      rcases this with rfl | rfl <;> rfl
    intro j op xs h
    simp only [appendExample, List.mem_cons, List.not_mem_nil, or_false, Prod.mk.injEq] at h
    rcases h with ⟨rfl, rfl, rfl⟩ | ⟨rfl, rfl, rfl⟩ | ⟨rfl, rfl, rfl⟩
    · exact ⟨⟨by decide, by unfold Base64.IsVariant; simp⟩, rfl, hr, by decide, by decide, by decide⟩
    · exact ⟨trivial, rfl, hr, by decide, by decide, by decide⟩
    · exact ⟨⟨fun s hs => (by cases hs), by unfold Base32.IsVariant; simp⟩, rfl, hr, by decide, by decide, by decide⟩

end Simd
