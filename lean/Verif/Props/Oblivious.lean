import Verif.Props.Anywhere
import Verif.Props.AnywhereText
import Verif.Spec.Oblivious
import Verif.Lemmas.ObliviousHex
import Verif.Lemmas.ObliviousBase
import Verif.Lemmas.ObliviousUnicode
/-
C66: which bytes of the slices are accessed, and in which order, depends on the position and length of the slices but not on the data.
Each theorem is about two runs in two memories that may differ in everything, as long as the slices are valid in both.

Accesses to the static tables of the scalar code (`tread`) are not part of the trace: nothing is claimed about them.
-/
namespace Simd

variable {α β : Type}

theorem stops_of {o : Out α} (h : (∃ a f, o = .ok a f) ∨ ∃ f, o = .err f) : o.Stops := by
  rcases h with ⟨_, _, rfl⟩ | ⟨_, rfl⟩ <;> trivial

theorem same_trace {x : Prog α} {m m' : Mem} (h : Obl' x x) (hx : ∃ a f, x.run m = .ok a f) (hy : ∃ a f, x.run m' = .ok a f) :
    x.trace m' = x.trace m := by
  have := h.trace (stops_of (.inl hx)) (stops_of (.inl hy))
  exact (this.1 hx).eq_of_length_le (this.2.1 hy).length_le

theorem lockstep {x : Prog α} {m m' : Mem} {ok ok' : Prop} (h : Obl' x x) (h1 : ok → ∃ a f, x.run m = .ok a f) (h2 : ¬ ok → ∃ f, x.run m = .err f)
    (h1' : ok' → ∃ a f, x.run m' = .ok a f) (h2' : ¬ ok' → ∃ f, x.run m' = .err f) : Spec.Lockstep ok ok' (x.trace m) (x.trace m') := by
  have := h.trace (stops_of ((Classical.em ok).imp h1 h2)) (stops_of ((Classical.em ok').imp h1' h2'))
  exact ⟨fun ho => this.1 (h1 ho), fun ho => this.2.1 (h1' ho), this.2.2⟩

/-- Lockstep for a program that first computes a value that is the same in both runs. -/
theorem lockstep_bind {x : Prog β} {f : β → Prog α} {m m' : Mem} {ok ok' : Prop} (hx : Obl' x x) (hf : ∀ r, Obl' (f r) (f r))
    (hr : (∃ r, x.run m = .ok r m ∧ x.run m' = .ok r m') ∨ x.run m = .err m ∧ x.run m' = .err m')
    (h1 : ok → ∃ a fin, (x >>= f).run m = .ok a fin) (h2 : ((x >>= f).run m).Stops)
    (h1' : ok' → ∃ a fin, (x >>= f).run m' = .ok a fin) (h2' : ((x >>= f).run m').Stops) : Spec.Lockstep ok ok' ((x >>= f).trace m) ((x >>= f).trace m') := by
  rw [run_bind] at h1 h2 h1' h2'
  rw [show (x >>= f).trace m = _ from trace_bind, show (x >>= f).trace m' = _ from trace_bind]
  rcases hr with ⟨r, hr, hr'⟩ | ⟨hr, hr'⟩ <;> rw [hr] at h1 h2 ⊢ <;> rw [hr'] at h1' h2' ⊢
  rotate_left
  · simp only [List.append_nil]
    refine ⟨fun ho => ?_, fun ho => ?_, ?_⟩
    · obtain ⟨a, fin, h⟩ := h1 ho; cases h
    · obtain ⟨a, fin, h⟩ := h1' ho; cases h
    · exact (hx.trace (by rw [hr]; trivial) (by rw [hr']; trivial)).2.2
  · dsimp only at h1 h2 h1' h2' ⊢
    have e : x.trace m' = x.trace m := same_trace hx ⟨_, _, hr⟩ ⟨_, _, hr'⟩
    rw [e]
    have := (hf r).trace h2 h2'
    simp only [Spec.Lockstep, List.prefix_append_right_inj]
    exact ⟨fun ho => this.1 (h1 ho), fun ho => this.2.1 (h1' ho), this.2.2⟩

theorem marks_length {xs xs' : List Byte} (h : Spec.SameMarks xs xs') : xs.length = xs'.length := by
  have := congrArg List.length h
  simpa using this

theorem marks_getD {xs xs' : List Byte} (h : Spec.SameMarks xs xs') (i : Nat) : xs.getD i 0 = 0x3d#8 ↔ xs'.getD i 0 = 0x3d#8 := by
  have e : ∀ l : List Byte, l.getD i 0 = 0x3d#8 ↔ (l.map (· == 0x3d#8))[i]? = some true := by
    intro l
    rw [List.getElem?_map, List.getD_eq_getElem?_getD]
    cases l[i]? with
    | none => simp
    | some a => simp
  rw [e, e, h]

theorem natOfBits_lt (l : List Bool) : Spec.natOfBits l < 2 ^ l.length := by
  have : ∀ (l : List Bool) (a : Nat), l.foldl (fun a b => 2 * a + b.toNat) a < 2 ^ l.length * (a + 1) := by
    intro l
    induction l with
    | nil => intro a; simp
    | cons b l ih =>
      intro a
      refine Nat.lt_of_lt_of_le (ih _) ?_
      rw [List.length_cons, Nat.pow_succ, Nat.mul_assoc]
      refine Nat.mul_le_mul_left _ ?_
      cases b <;> simp <;> omega
  simpa [Spec.natOfBits] using this l 0
theorem group_lt (k : Nat) (bits : List Bool) (j : Nat) : Spec.group k bits j < 2 ^ k := by
  simpa [Spec.group] using natOfBits_lt ((List.range k).map fun i => bits.getD (k * j + i) false)

/-- Encodings of equally many bytes have '=' at the same places. -/
theorem marks_padTo (q k : Nat) {char : Nat → Byte} (hc : ∀ v, v < 2 ^ k → char v ≠ 0x3d#8) {ys ys' : List Byte} (h : ys'.length = ys.length) (pad : Bool) :
    Spec.SameMarks (if pad then Spec.padTo q (Spec.baseText k char ys) else Spec.baseText k char ys)
      (if pad then Spec.padTo q (Spec.baseText k char ys') else Spec.baseText k char ys') := by
  have e : ∀ zs : List Byte, (Spec.baseText k char zs).map (· == 0x3d#8) = List.replicate ((8 * zs.length + k - 1) / k) false := by
    intro zs
    rw [Spec.baseText, List.map_map, List.eq_replicate_iff]
    refine ⟨by simp, ?_⟩
    intro b hb
    obtain ⟨j, -, rfl⟩ := List.mem_map.1 hb
    simpa using hc _ (group_lt _ _ _)
  have l : ∀ zs : List Byte, (Spec.baseText k char zs).length = (8 * zs.length + k - 1) / k := by intro zs; simp [Spec.baseText]
  unfold Spec.SameMarks
  cases pad
  · simp only [Bool.false_eq_true, if_false, e, h]
  · simp only [if_true, Spec.padTo, List.map_append, e, l, h]

theorem Spec.Lockstep.eq {ok ok' : Prop} {t t' : List Access} (h : Spec.Lockstep ok ok' t t') (h1 : ok) (h2 : ok') : t' = t :=
  (h.1 h1).eq_of_length_le (h.2.1 h2).length_le

namespace Base64

theorem dlen_marks (extra : Extra) {xs xs' : List Byte} (h : Spec.SameMarks xs xs') : dlen extra xs = dlen extra xs' := by
  have hl := marks_length h
  have hp : padCount xs = padCount xs' := by
    unfold padCount
    simp only [hl, marks_getD h]
  have hn : xs = [] ↔ xs' = [] := by rw [← List.length_eq_zero_iff, ← List.length_eq_zero_iff, hl]
  unfold dlen
  have : dataLen extra xs = dataLen extra xs' := by unfold dataLen; rw [hl, hp]
  rw [this]
  simp only [hn]

theorem dlen_noPad {xs xs' : List Byte} (h : xs.length = xs'.length) : dlen .noPad xs = dlen .noPad xs' := by
  have hn : xs = [] ↔ xs' = [] := by rw [← List.length_eq_zero_iff, ← List.length_eq_zero_iff, h]
  simp only [dlen, dataLen, h, hn]

theorem dlen_same {config url pad} (hv : IsVariant config url pad) {xs xs' : List Byte} (hl : xs'.length = xs.length) (h : pad = true → Spec.SameMarks xs xs') :
    dlen config.extra xs = dlen config.extra xs' := by
  rcases hv with ⟨rfl, rfl, rfl⟩ | ⟨rfl, rfl, rfl⟩ | ⟨rfl, rfl, rfl⟩ | ⟨rfl, rfl, rfl⟩
  · exact dlen_marks _ (h rfl)
  · exact dlen_marks _ (h rfl)
  · exact dlen_noPad hl.symm
  · exact dlen_noPad hl.symm

theorem dlen_runs {config url pad} (hv : IsVariant config url pad) {m m' : Mem} {p : Ptr} {xs xs' : List Byte} (hl : xs'.length = xs.length)
    (hs : pad = true → Spec.SameMarks xs xs') (hr : Spec.Reads m p xs) (hr' : Spec.Reads m' p xs') :
    (∃ r, (decoded_length ⟨p, xs.length⟩ config).run m = .ok r m ∧ (decoded_length ⟨p, xs.length⟩ config).run m' = .ok r m') ∨
      (decoded_length ⟨p, xs.length⟩ config).run m = .err m ∧ (decoded_length ⟨p, xs.length⟩ config).run m' = .err m' := by
  have hD := decoded_length_run config m p xs hr.has
  have hD' := decoded_length_run config m' p xs' hr'.has
  rw [hl, ← dlen_same hv hl hs] at hD'
  rw [hD, hD']
  cases dlen config.extra xs with
  | none => exact .inr ⟨rfl, rfl⟩
  | some r => exact .inl ⟨r, rfl, rfl⟩

/-- C66, texts: encodings of equally many bytes have the same length and '=' at the same places. -/
theorem C66_marks (url pad : Bool) {ys ys' : List Byte} (h : ys'.length = ys.length) : Spec.SameMarks (Spec.base64 url pad ys) (Spec.base64 url pad ys') := by
  refine marks_padTo 4 6 (fun v _ hv => ?_) h pad
  have := congrArg BitVec.toNat hv
  unfold Spec.base64Char at this
  simp only [Char.toNat] at this
  repeat' split at this
  all_goals simp at this
  all_goals omega

/-- C66, `encode` of base64-simd: the accesses are the same for all sources of the same length. -/
theorem C66_encode (P : Plat) {i : Option Isa} (hi : i ≠ some .sse2) {config url pad} (hv : IsVariant config url pad)
    (m m' : Mem) (p q : Ptr) (xs xs' : List Byte) (d : Nat) (hl : xs'.length = xs.length) (hr : Spec.Reads m p xs) (hr' : Spec.Reads m' p xs')
    (hw : Spec.Writable m q d) (hw' : Spec.Writable m' q d) (hd : Spec.NoOverlap p xs.length q d) (hx : xs.length ≤ P.isizeMax)
    (h : (Spec.base64 url pad xs).length ≤ d) :
    (encode P i config ⟨p, xs.length⟩ ⟨q, d⟩).trace m' = (encode P i config ⟨p, xs.length⟩ ⟨q, d⟩).trace m := by
  obtain ⟨f, h1, -⟩ := C59_encode P hi hv m p q xs d hr hw hd hx h
  obtain ⟨f', h1', -⟩ := C59_encode P hi hv m' p q xs' d hr' hw' (hl ▸ hd) (hl ▸ hx) (by rwa [← marks_length (C66_marks url pad hl)])
  rw [hl] at h1'
  exact same_trace (obl_encode _ _ P i config) ⟨_, _, h1⟩ ⟨_, _, h1'⟩

theorem obl_rest (i : Option Isa) (config : Config) (p q : Ptr) (d : Nat) (r : Nat × Nat) :
    Obl' (do ensure (d ≥ r.2); decode_auto i p q r.1 config; return (⟨q, r.2⟩ : Slice)) (do ensure (d ≥ r.2); decode_auto i p q r.1 config; return ⟨q, r.2⟩) := by
  obl [obl_decode_auto] []
theorem obl_rest_inplace (i : Option Isa) (config : Config) (p : Ptr) (r : Nat × Nat) :
    Obl' (do decode_auto i p p r.1 config; return (⟨p, r.2⟩ : Slice)) (do decode_auto i p p r.1 config; return ⟨p, r.2⟩) := by
  obl [obl_decode_auto] []

/-- C66, `decode` of base64-simd: on two texts of the same length with '=' at the same places, the accesses of one run are the first accesses of the
other; only the point at which an invalid text is rejected depends on the data. -/
theorem C66_decode {i : Option Isa} (hi : i ≠ some .sse2) {config url pad} (hv : IsVariant config url pad)
    (m m' : Mem) (p q : Ptr) (xs xs' : List Byte) (d : Nat) (hl : xs'.length = xs.length) (hs : pad = true → Spec.SameMarks xs xs')
    (hr : Spec.Reads m p xs) (hr' : Spec.Reads m' p xs') (hw : Spec.Writable m q d) (hw' : Spec.Writable m' q d)
    (hd : Spec.NoOverlap p xs.length q d) :
    Spec.Lockstep (∃ ys, Spec.base64 url pad ys = xs ∧ ys.length ≤ d) (∃ ys, Spec.base64 url pad ys = xs' ∧ ys.length ≤ d)
      ((decode i config ⟨p, xs.length⟩ ⟨q, d⟩).trace m) ((decode i config ⟨p, xs.length⟩ ⟨q, d⟩).trace m') := by
  have hok : ∀ (m : Mem) (xs : List Byte), Spec.Reads m p xs → Spec.Writable m q d → Spec.NoOverlap p xs.length q d →
      ((∃ ys, Spec.base64 url pad ys = xs ∧ ys.length ≤ d) → ∃ a fin, (decode i config ⟨p, xs.length⟩ ⟨q, d⟩).run m = .ok a fin) ∧
      ((decode i config ⟨p, xs.length⟩ ⟨q, d⟩).run m).Stops := by
    intro m xs hr hw hd
    by_cases hy : ∃ ys, Spec.base64 url pad ys = xs
    · obtain ⟨ys, rfl⟩ := hy
      have h := C59_decode hi hv m p q ys d hr hw hd
      by_cases hk : ys.length ≤ d
      · obtain ⟨f, h1, -⟩ := h.1 hk
        exact ⟨fun _ => ⟨_, _, h1⟩, by rw [h1]; trivial⟩
      · refine ⟨fun ⟨zs, hz, hk'⟩ => ?_, by rw [h.2 (by omega)]; trivial⟩
        rw [Option.some.inj (((hv.full _ zs).2 hz).symm.trans ((hv.full _ ys).2 rfl))] at hk'
        exact absurd hk' hk
    · obtain ⟨f, h1, -⟩ := C59_decode_err hi hv m p q xs d hr hw hd hy
      exact ⟨fun ⟨ys, h, _⟩ => absurd ⟨ys, h⟩ hy, by rw [h1]; trivial⟩
  have h := hok m xs hr hw hd
  have h' := hok m' xs' hr' hw' (hl ▸ hd)
  rw [hl] at h'
  exact lockstep_bind (obl_decoded_length _ _) (obl_rest i config p q d) (dlen_runs hv hl hs hr hr') h.1 h.2 h'.1 h'.2

/-- C66, `decode_inplace` of base64-simd. -/
theorem C66_inplace {i : Option Isa} (hi : i ≠ some .sse2) {config url pad} (hv : IsVariant config url pad)
    (m m' : Mem) (p : Ptr) (xs xs' : List Byte) (hl : xs'.length = xs.length) (hs : pad = true → Spec.SameMarks xs xs')
    (hr : Spec.Reads m p xs) (hr' : Spec.Reads m' p xs') :
    Spec.Lockstep (∃ ys, Spec.base64 url pad ys = xs) (∃ ys, Spec.base64 url pad ys = xs')
      ((decode_inplace i config ⟨p, xs.length⟩).trace m) ((decode_inplace i config ⟨p, xs.length⟩).trace m') := by
  have hok : ∀ (m : Mem) (xs : List Byte), Spec.Reads m p xs →
      ((∃ ys, Spec.base64 url pad ys = xs) → ∃ a fin, (decode_inplace i config ⟨p, xs.length⟩).run m = .ok a fin) ∧
      ((decode_inplace i config ⟨p, xs.length⟩).run m).Stops := by
    intro m xs hr
    have h := C59_inplace hi hv m p xs hr
    by_cases hy : ∃ ys, Spec.base64 url pad ys = xs
    · obtain ⟨ys, hy⟩ := hy
      obtain ⟨f, h1, -⟩ := h.1 ys hy
      exact ⟨fun _ => ⟨_, _, h1⟩, by rw [h1]; trivial⟩
    · obtain ⟨f, h1, -⟩ := h.2 hy
      exact ⟨fun h => absurd h hy, by rw [h1]; trivial⟩
  have h := hok m xs hr
  have h' := hok m' xs' hr'
  rw [hl] at h'
  exact lockstep_bind (obl_decoded_length _ _) (obl_rest_inplace i config p) (dlen_runs hv hl hs hr hr') h.1 h.2 h'.1 h'.2

/-- C66, `check` of base64-simd. -/
theorem C66_check {i : Option Isa} (hi : i ≠ some .sse2) {config url pad} (hv : IsVariant config url pad)
    (m m' : Mem) (p : Ptr) (xs xs' : List Byte) (hl : xs'.length = xs.length) (hs : pad = true → Spec.SameMarks xs xs')
    (hr : Spec.Reads m p xs) (hr' : Spec.Reads m' p xs') :
    Spec.Lockstep (∃ ys, Spec.base64 url pad ys = xs) (∃ ys, Spec.base64 url pad ys = xs')
      ((check i config ⟨p, xs.length⟩).trace m) ((check i config ⟨p, xs.length⟩).trace m') := by
  have hok : ∀ (m : Mem) (xs : List Byte), Spec.Reads m p xs →
      ((∃ ys, Spec.base64 url pad ys = xs) → ∃ a fin, (check i config ⟨p, xs.length⟩).run m = .ok a fin) ∧ ((check i config ⟨p, xs.length⟩).run m).Stops := by
    intro m xs hr
    have h := C59_check hi hv m p xs hr
    by_cases hy : ∃ ys, Spec.base64 url pad ys = xs
    · exact ⟨fun _ => ⟨_, _, h.1 hy⟩, by rw [h.1 hy]; trivial⟩
    · exact ⟨fun h => absurd h hy, by rw [h.2 hy]; trivial⟩
  have h := hok m xs hr
  have h' := hok m' xs' hr'
  rw [hl] at h'
  exact lockstep_bind (obl_decoded_length _ _) (fun r => obl_check_auto p i r.1 config) (dlen_runs hv hl hs hr hr') h.1 h.2 h'.1 h'.2

/-- C66, decoding valid texts: the accesses of `decode` and `decode_inplace` depend only on the number of bytes decoded. -/
theorem C66_decode_valid {i : Option Isa} (hi : i ≠ some .sse2) {config url pad} (hv : IsVariant config url pad)
    (m m' : Mem) (p q : Ptr) (ys ys' : List Byte) (d : Nat) (hl : ys'.length = ys.length)
    (hr : Spec.Reads m p (Spec.base64 url pad ys)) (hr' : Spec.Reads m' p (Spec.base64 url pad ys')) :
    (decode_inplace i config ⟨p, (Spec.base64 url pad ys).length⟩).trace m' = (decode_inplace i config ⟨p, (Spec.base64 url pad ys).length⟩).trace m ∧
    (Spec.Writable m q d → Spec.Writable m' q d → Spec.NoOverlap p (Spec.base64 url pad ys).length q d → ys.length ≤ d →
      (decode i config ⟨p, (Spec.base64 url pad ys).length⟩ ⟨q, d⟩).trace m' = (decode i config ⟨p, (Spec.base64 url pad ys).length⟩ ⟨q, d⟩).trace m) := by
  have hs := C66_marks url pad hl
  have hl' := (marks_length hs).symm
  constructor
  · exact (C66_inplace hi hv m m' p _ _ hl' (fun _ => hs) hr hr').eq ⟨_, rfl⟩ ⟨_, rfl⟩
  · intro hw hw' hd hk
    exact (C66_decode hi hv m m' p q _ _ d hl' (fun _ => hs) hr hr' hw hw' hd).eq ⟨_, rfl, hk⟩ ⟨_, rfl, hl ▸ hk⟩

end Base64

namespace Base32

theorem dlen_marks {xs xs' : List Byte} (h : Spec.SameMarks xs xs') : dlen true xs = dlen true xs' := by
  have hl := marks_length h
  have hp : padCount xs = padCount xs' := by
    have e : ∀ (n : Nat) (l : List Byte), (l.drop n).countP (· == 0x3d#8) = ((l.map (· == 0x3d#8)).drop n).countP id := by
      intro n l
      rw [← List.map_drop, List.countP_map]; rfl
    unfold padCount
    rw [e, e, h, hl]
  have hn : xs = [] ↔ xs' = [] := by rw [← List.length_eq_zero_iff, ← List.length_eq_zero_iff, hl]
  simp only [dlen, dataLen, hl, hp, hn]

theorem dlen_same {config hex pad} (hv : IsVariant config hex pad) {xs xs' : List Byte} (hl : xs'.length = xs.length) (h : pad = true → Spec.SameMarks xs xs') :
    dlen config.padding xs = dlen config.padding xs' := by
  have hn : xs = [] ↔ xs' = [] := by rw [← List.length_eq_zero_iff, ← List.length_eq_zero_iff, hl]
  rcases hv with ⟨rfl, rfl, rfl⟩ | ⟨rfl, rfl, rfl⟩ | ⟨rfl, rfl, rfl⟩ | ⟨rfl, rfl, rfl⟩
  · exact dlen_marks (h rfl)
  · exact dlen_marks (h rfl)
  · simp [BASE32_NO_PAD, dlen, dataLen, hl, hn]
  · simp [BASE32HEX_NO_PAD, dlen, dataLen, hl, hn]

theorem dlen_runs {config hex pad} (hv : IsVariant config hex pad) {m m' : Mem} {p : Ptr} {xs xs' : List Byte} (hl : xs'.length = xs.length)
    (hs : pad = true → Spec.SameMarks xs xs') (hr : Spec.Reads m p xs) (hr' : Spec.Reads m' p xs') :
    (∃ r, (decoded_length ⟨p, xs.length⟩ config.padding).run m = .ok r m ∧ (decoded_length ⟨p, xs.length⟩ config.padding).run m' = .ok r m') ∨
      (decoded_length ⟨p, xs.length⟩ config.padding).run m = .err m ∧ (decoded_length ⟨p, xs.length⟩ config.padding).run m' = .err m' := by
  have hD := decoded_length_run config.padding m p xs hr.has
  have hD' := decoded_length_run config.padding m' p xs' hr'.has
  rw [hl, ← dlen_same hv hl hs] at hD'
  rw [hD, hD']
  cases dlen config.padding xs with
  | none => exact .inr ⟨rfl, rfl⟩
  | some r => exact .inl ⟨r, rfl, rfl⟩

/-- C66, texts. -/
theorem C66_marks (hex pad : Bool) {ys ys' : List Byte} (h : ys'.length = ys.length) : Spec.SameMarks (Spec.base32 hex pad ys) (Spec.base32 hex pad ys') := by
  refine marks_padTo 8 5 (fun v hn hv => ?_) h pad
  have := congrArg BitVec.toNat hv
  unfold Spec.base32Char at this
  simp only [Char.toNat] at this
  repeat' split at this
  all_goals simp at this
  all_goals omega

/-- C66, `encode` of base32-simd: the accesses are the same for all sources of the same length. -/
theorem C66_encode (P : Plat) (w : Bool) {i : Option Isa} (hi : Impl i) {config hex pad} (hv : IsVariant config hex pad)
    (m m' : Mem) (p q : Ptr) (xs xs' : List Byte) (d : Nat) (hl : xs'.length = xs.length) (hr : Spec.Reads m p xs) (hr' : Spec.Reads m' p xs')
    (hw : Spec.Writable m q d) (hw' : Spec.Writable m' q d) (hd : Spec.NoOverlap p xs.length q d) (hx : xs.length ≤ P.isizeMax)
    (h : (Spec.base32 hex pad xs).length ≤ d) :
    (encode P w i config ⟨p, xs.length⟩ ⟨q, d⟩).trace m' = (encode P w i config ⟨p, xs.length⟩ ⟨q, d⟩).trace m := by
  obtain ⟨f, h1, -⟩ := C59_encode P w hi hv m p q xs d hr hw hd hx h
  obtain ⟨f', h1', -⟩ := C59_encode P w hi hv m' p q xs' d hr' hw' (hl ▸ hd) (hl ▸ hx) (by rwa [← marks_length (C66_marks hex pad hl)])
  rw [hl] at h1'
  exact same_trace (obl_encode _ _ P w i config) ⟨_, _, h1⟩ ⟨_, _, h1'⟩

theorem obl_rest (w : Bool) (i : Option Isa) (config : Config) (p q : Ptr) (d : Nat) (r : Nat × Nat) :
    Obl' (do ensure (d ≥ r.2); decode_auto w i p r.1 q config.kind; return (⟨q, r.2⟩ : Slice)) (do ensure (d ≥ r.2); decode_auto w i p r.1 q config.kind; return ⟨q, r.2⟩) := by
  obl [obl_decode_auto] []
theorem obl_rest_inplace (w : Bool) (i : Option Isa) (config : Config) (p : Ptr) (r : Nat × Nat) :
    Obl' (do decode_auto w i p r.1 p config.kind; return (⟨p, r.2⟩ : Slice)) (do decode_auto w i p r.1 p config.kind; return ⟨p, r.2⟩) := by
  obl [obl_decode_auto] []

/-- C66, `decode` of base32-simd: on two texts of the same length with '=' at the same places, the accesses of one run are the first accesses of the
other; only the point at which an invalid text is rejected depends on the data. -/
theorem C66_decode (w : Bool) {i : Option Isa} (hi : Impl i) {config hex pad} (hv : IsVariant config hex pad)
    (m m' : Mem) (p q : Ptr) (xs xs' : List Byte) (d : Nat) (hl : xs'.length = xs.length) (hs : pad = true → Spec.SameMarks xs xs')
    (hr : Spec.Reads m p xs) (hr' : Spec.Reads m' p xs') (hw : Spec.Writable m q d) (hw' : Spec.Writable m' q d)
    (hd : Spec.NoOverlap p xs.length q d) :
    Spec.Lockstep (∃ ys, Spec.base32 hex pad ys = xs ∧ ys.length ≤ d) (∃ ys, Spec.base32 hex pad ys = xs' ∧ ys.length ≤ d)
      ((decode w i config ⟨p, xs.length⟩ ⟨q, d⟩).trace m) ((decode w i config ⟨p, xs.length⟩ ⟨q, d⟩).trace m') := by
  have hok : ∀ (m : Mem) (xs : List Byte), Spec.Reads m p xs → Spec.Writable m q d → Spec.NoOverlap p xs.length q d →
      ((∃ ys, Spec.base32 hex pad ys = xs ∧ ys.length ≤ d) → ∃ a fin, (decode w i config ⟨p, xs.length⟩ ⟨q, d⟩).run m = .ok a fin) ∧
      ((decode w i config ⟨p, xs.length⟩ ⟨q, d⟩).run m).Stops := by
    intro m xs hr hw hd
    by_cases hy : ∃ ys, Spec.base32 hex pad ys = xs
    · obtain ⟨ys, rfl⟩ := hy
      have h := C59_decode w hi hv m p q ys d hr hw hd
      by_cases hk : ys.length ≤ d
      · obtain ⟨f, h1, -⟩ := h.1 hk
        exact ⟨fun _ => ⟨_, _, h1⟩, by rw [h1]; trivial⟩
      · refine ⟨fun ⟨zs, hz, hk'⟩ => ?_, by rw [h.2 (by omega)]; trivial⟩
        rw [Option.some.inj (((hv.full _ zs).2 hz).symm.trans ((hv.full _ ys).2 rfl))] at hk'
        exact absurd hk' hk
    · obtain ⟨f, h1, -⟩ := C59_decode_err w hi hv m p q xs d hr hw hd hy
      exact ⟨fun ⟨ys, h, _⟩ => absurd ⟨ys, h⟩ hy, by rw [h1]; trivial⟩
  have h := hok m xs hr hw hd
  have h' := hok m' xs' hr' hw' (hl ▸ hd)
  rw [hl] at h'
  exact lockstep_bind (obl_decoded_length _ _) (obl_rest w i config p q d) (dlen_runs hv hl hs hr hr') h.1 h.2 h'.1 h'.2

/-- C66, `decode_inplace` of base32-simd. -/
theorem C66_inplace (w : Bool) {i : Option Isa} (hi : Impl i) {config hex pad} (hv : IsVariant config hex pad)
    (m m' : Mem) (p : Ptr) (xs xs' : List Byte) (hl : xs'.length = xs.length) (hs : pad = true → Spec.SameMarks xs xs')
    (hr : Spec.Reads m p xs) (hr' : Spec.Reads m' p xs') :
    Spec.Lockstep (∃ ys, Spec.base32 hex pad ys = xs) (∃ ys, Spec.base32 hex pad ys = xs')
      ((decode_inplace w i config ⟨p, xs.length⟩).trace m) ((decode_inplace w i config ⟨p, xs.length⟩).trace m') := by
  have hok : ∀ (m : Mem) (xs : List Byte), Spec.Reads m p xs →
      ((∃ ys, Spec.base32 hex pad ys = xs) → ∃ a fin, (decode_inplace w i config ⟨p, xs.length⟩).run m = .ok a fin) ∧
      ((decode_inplace w i config ⟨p, xs.length⟩).run m).Stops := by
    intro m xs hr
    have h := C59_inplace w hi hv m p xs hr
    by_cases hy : ∃ ys, Spec.base32 hex pad ys = xs
    · obtain ⟨ys, hy⟩ := hy
      obtain ⟨f, h1, -⟩ := h.1 ys hy
      exact ⟨fun _ => ⟨_, _, h1⟩, by rw [h1]; trivial⟩
    · obtain ⟨f, h1, -⟩ := h.2 hy
      exact ⟨fun h => absurd h hy, by rw [h1]; trivial⟩
  have h := hok m xs hr
  have h' := hok m' xs' hr'
  rw [hl] at h'
  exact lockstep_bind (obl_decoded_length _ _) (obl_rest_inplace w i config p) (dlen_runs hv hl hs hr hr') h.1 h.2 h'.1 h'.2

/-- C66, `check` of base32-simd. -/
theorem C66_check {i : Option Isa} (hi : i ≠ some .sse2) {config hex pad} (hv : IsVariant config hex pad)
    (m m' : Mem) (p : Ptr) (xs xs' : List Byte) (hl : xs'.length = xs.length) (hs : pad = true → Spec.SameMarks xs xs')
    (hr : Spec.Reads m p xs) (hr' : Spec.Reads m' p xs') :
    Spec.Lockstep (∃ ys, Spec.base32 hex pad ys = xs) (∃ ys, Spec.base32 hex pad ys = xs')
      ((check i config ⟨p, xs.length⟩).trace m) ((check i config ⟨p, xs.length⟩).trace m') := by
  have hok : ∀ (m : Mem) (xs : List Byte), Spec.Reads m p xs →
      ((∃ ys, Spec.base32 hex pad ys = xs) → ∃ a fin, (check i config ⟨p, xs.length⟩).run m = .ok a fin) ∧ ((check i config ⟨p, xs.length⟩).run m).Stops := by
    intro m xs hr
    have h := C59_check hi hv m p xs hr
    by_cases hy : ∃ ys, Spec.base32 hex pad ys = xs
    · exact ⟨fun _ => ⟨_, _, h.1 hy⟩, by rw [h.1 hy]; trivial⟩
    · exact ⟨fun h => absurd h hy, by rw [h.2 hy]; trivial⟩
  have h := hok m xs hr
  have h' := hok m' xs' hr'
  rw [hl] at h'
  exact lockstep_bind (obl_decoded_length _ _) (fun r => obl_check_auto p i r.1 config.kind) (dlen_runs hv hl hs hr hr') h.1 h.2 h'.1 h'.2

/-- C66, decoding valid texts: the accesses of `decode` and `decode_inplace` depend only on the number of bytes decoded. -/
theorem C66_decode_valid (w : Bool) {i : Option Isa} (hi : Impl i) {config hex pad} (hv : IsVariant config hex pad)
    (m m' : Mem) (p q : Ptr) (ys ys' : List Byte) (d : Nat) (hl : ys'.length = ys.length)
    (hr : Spec.Reads m p (Spec.base32 hex pad ys)) (hr' : Spec.Reads m' p (Spec.base32 hex pad ys')) :
    (decode_inplace w i config ⟨p, (Spec.base32 hex pad ys).length⟩).trace m' = (decode_inplace w i config ⟨p, (Spec.base32 hex pad ys).length⟩).trace m ∧
    (Spec.Writable m q d → Spec.Writable m' q d → Spec.NoOverlap p (Spec.base32 hex pad ys).length q d → ys.length ≤ d →
      (decode w i config ⟨p, (Spec.base32 hex pad ys).length⟩ ⟨q, d⟩).trace m' = (decode w i config ⟨p, (Spec.base32 hex pad ys).length⟩ ⟨q, d⟩).trace m) := by
  have hs := C66_marks hex pad hl
  have hl' := (marks_length hs).symm
  constructor
  · exact (C66_inplace w hi hv m m' p _ _ hl' (fun _ => hs) hr hr').eq ⟨_, rfl⟩ ⟨_, rfl⟩
  · intro hw hw' hd hk
    exact (C66_decode w hi hv m m' p q _ _ d hl' (fun _ => hs) hr hr' hw hw' hd).eq ⟨_, rfl, hk⟩ ⟨_, rfl, hl ▸ hk⟩

end Base32

namespace Hex

/-- C66, `encode` of hex-simd. -/
theorem C66_encode (P : Plat) (i : Option Isa) (case : AsciiCase) (m m' : Mem) (p q : Ptr) (xs xs' : List Byte) (d : Nat) (hl : xs'.length = xs.length)
    (hr : Spec.Reads m p xs) (hr' : Spec.Reads m' p xs') (hw : Spec.Writable m q d) (hw' : Spec.Writable m' q d) (hsz : d ≤ P.usizeMax)
    (hd : Spec.NoOverlap p xs.length q d) (h : 2 * xs.length ≤ d) :
    (encode P i ⟨p, xs.length⟩ ⟨q, d⟩ case).trace m' = (encode P i ⟨p, xs.length⟩ ⟨q, d⟩ case).trace m := by
  obtain ⟨f, h1, -⟩ := (C59_encode P i case m p q xs d hr hw hsz hd).1 h
  obtain ⟨f', h1', -⟩ := (C59_encode P i case m' p q xs' d hr' hw' hsz (hl ▸ hd)).1 (hl ▸ h)
  rw [hl] at h1'
  exact same_trace (obl_encode _ _ P i case) ⟨_, _, h1⟩ ⟨_, _, h1'⟩

/-- C66, `decode` of hex-simd. -/
theorem C66_decode (i : Option Isa) (m m' : Mem) (p q : Ptr) (xs xs' : List Byte) (d : Nat) (hl : xs'.length = xs.length)
    (hr : Spec.Reads m p xs) (hr' : Spec.Reads m' p xs') (hw : Spec.Writable m q d) (hw' : Spec.Writable m' q d)
    (hd : Spec.NoOverlap p xs.length q d) (h : xs.length / 2 ≤ d) :
    Spec.Lockstep (∃ ys, Spec.IsHexOf xs ys) (∃ ys, Spec.IsHexOf xs' ys)
      ((decode i ⟨p, xs.length⟩ ⟨q, d⟩).trace m) ((decode i ⟨p, xs.length⟩ ⟨q, d⟩).trace m') := by
  have hok : ∀ (m : Mem) (xs : List Byte), Spec.Reads m p xs → Spec.Writable m q d → Spec.NoOverlap p xs.length q d → xs.length / 2 ≤ d →
      ((∃ ys, Spec.IsHexOf xs ys) → ∃ a fin, (decode i ⟨p, xs.length⟩ ⟨q, d⟩).run m = .ok a fin) ∧
      ((¬ ∃ ys, Spec.IsHexOf xs ys) → ∃ fin, (decode i ⟨p, xs.length⟩ ⟨q, d⟩).run m = .err fin) := by
    intro m xs hr hw hd h
    have hc := C59_decode i m p q xs d hr hw hd
    refine ⟨fun ⟨ys, hy⟩ => ?_, fun hy => ?_⟩
    · have hl := isHexOf_length hy
      obtain ⟨f, h1, -⟩ := hc.1 ys hy (by omega)
      exact ⟨_, _, h1⟩
    · obtain ⟨f, h1, -⟩ := hc.2.2 hy
      exact ⟨_, h1⟩
  have h1 := hok m xs hr hw hd h
  have h2 := hok m' xs' hr' hw' (hl ▸ hd) (hl ▸ h)
  rw [hl] at h2
  exact lockstep (obl_decode _ _ i) h1.1 h1.2 h2.1 h2.2

/-- C66, `decode_inplace` of hex-simd. -/
theorem C66_inplace (i : Option Isa) (m m' : Mem) (p : Ptr) (xs xs' : List Byte) (hl : xs'.length = xs.length)
    (hr : Spec.Reads m p xs) (hr' : Spec.Reads m' p xs') :
    Spec.Lockstep (∃ ys, Spec.IsHexOf xs ys) (∃ ys, Spec.IsHexOf xs' ys)
      ((decode_inplace i ⟨p, xs.length⟩).trace m) ((decode_inplace i ⟨p, xs.length⟩).trace m') := by
  have hok : ∀ (m : Mem) (xs : List Byte), Spec.Reads m p xs →
      ((∃ ys, Spec.IsHexOf xs ys) → ∃ a fin, (decode_inplace i ⟨p, xs.length⟩).run m = .ok a fin) ∧
      ((¬ ∃ ys, Spec.IsHexOf xs ys) → ∃ fin, (decode_inplace i ⟨p, xs.length⟩).run m = .err fin) := by
    intro m xs hr
    have hc := C59_inplace i m p xs hr
    refine ⟨fun ⟨ys, hy⟩ => ?_, fun hy => ?_⟩
    · obtain ⟨f, h1, -⟩ := hc.1 ys hy
      exact ⟨_, _, h1⟩
    · obtain ⟨f, h1, -⟩ := hc.2 hy
      exact ⟨_, h1⟩
  have h1 := hok m xs hr
  have h2 := hok m' xs' hr'
  rw [hl] at h2
  exact lockstep (obl_decode_inplace _ i) h1.1 h1.2 h2.1 h2.2

/-- C66, `check` of hex-simd. -/
theorem C66_check (i : Option Isa) (m m' : Mem) (p : Ptr) (xs xs' : List Byte) (hl : xs'.length = xs.length)
    (hr : Spec.Reads m p xs) (hr' : Spec.Reads m' p xs') :
    Spec.Lockstep (∀ c ∈ xs, Spec.isHexDigit c) (∀ c ∈ xs', Spec.isHexDigit c)
      ((check i ⟨p, xs.length⟩).trace m) ((check i ⟨p, xs.length⟩).trace m') := by
  have hok : ∀ (m : Mem) (xs : List Byte), Spec.Reads m p xs →
      ((∀ c ∈ xs, Spec.isHexDigit c) → ∃ a fin, (check i ⟨p, xs.length⟩).run m = .ok a fin) ∧
      ((¬ ∀ c ∈ xs, Spec.isHexDigit c) → ∃ fin, (check i ⟨p, xs.length⟩).run m = .err fin) := by
    intro m xs hr
    have hc : (check i ⟨p, xs.length⟩).run m = _ := C58_check_raw i m p xs hr
    rw [hc]
    exact ⟨fun h => ⟨_, _, if_pos h⟩, fun h => ⟨_, if_neg h⟩⟩
  have h1 := hok m xs hr
  have h2 := hok m' xs' hr'
  rw [hl] at h2
  exact lockstep (obl_check_auto p i _) h1.1 h1.2 h2.1 h2.2

end Hex

namespace Uuid

/-- C66, `format_simple`: the accesses are the same for all UUIDs. -/
theorem C66_format_simple (i : Option Isa) (case : AsciiCase) (m m' : Mem) (p q : Ptr) (u u' : List Byte) (hu : u.length = 16) (hu' : u'.length = 16)
    (hr : Spec.Reads m p u) (hr' : Spec.Reads m' p u') (hw : Spec.Writable m q 32) (hw' : Spec.Writable m' q 32) (hd : Spec.NoOverlap p 16 q 32) :
    (format_simple i p q case).trace m' = (format_simple i p q case).trace m := by
  obtain ⟨f, h1, -⟩ := C60_format_simple i case m p q u hu hr hw hd
  obtain ⟨f', h1', -⟩ := C60_format_simple i case m' p q u' hu' hr' hw' hd
  exact same_trace (obl_format_simple p q i case) ⟨_, _, h1⟩ ⟨_, _, h1'⟩

/-- C66, `format_hyphenated`. -/
theorem C66_format_hyphenated {i : Option Isa} (hi : HypImpl i) (case : AsciiCase) (m m' : Mem) (p q : Ptr) (u u' : List Byte) (hu : u.length = 16)
    (hu' : u'.length = 16) (hr : Spec.Reads m p u) (hr' : Spec.Reads m' p u') (hw : Spec.Writable m q 36) (hw' : Spec.Writable m' q 36)
    (hd : Spec.NoOverlap p 16 q 36) : (format_hyphenated i p q case).trace m' = (format_hyphenated i p q case).trace m := by
  obtain ⟨f, h1, -⟩ := C60_format_hyphenated hi case m p q u hu hr hw hd
  obtain ⟨f', h1', -⟩ := C60_format_hyphenated hi case m' p q u' hu' hr' hw' hd
  exact same_trace (obl_format_hyphenated p q i case) ⟨_, _, h1⟩ ⟨_, _, h1'⟩

theorem lock_parse {x : Prog Slice} {m m' : Mem} {A A' : List Byte → Prop} {q : Ptr} {E : Mem → Mem → Prop} {W : Mem → Mem → List Byte → Prop} (hx : Obl' x x)
    (h : (∀ u, A u → ∃ f, x.run m = .ok ⟨q, 16⟩ f ∧ W m f u) ∧ ((¬ ∃ u, A u) → ∃ f, x.run m = .err f ∧ E m f))
    (h' : (∀ u, A' u → ∃ f, x.run m' = .ok ⟨q, 16⟩ f ∧ W m' f u) ∧ ((¬ ∃ u, A' u) → ∃ f, x.run m' = .err f ∧ E m' f)) :
    Spec.Lockstep (∃ u, A u) (∃ u, A' u) (x.trace m) (x.trace m') := by
  refine lockstep hx (fun ⟨u, hu⟩ => ?_) (fun hu => ?_) (fun ⟨u, hu⟩ => ?_) (fun hu => ?_)
  · obtain ⟨f, h, -⟩ := h.1 u hu; exact ⟨_, _, h⟩
  · obtain ⟨f, h, -⟩ := h.2 hu; exact ⟨_, h⟩
  · obtain ⟨f, h, -⟩ := h'.1 u hu; exact ⟨_, _, h⟩
  · obtain ⟨f, h, -⟩ := h'.2 hu; exact ⟨_, h⟩

/-- C66, `parse` of uuid-simd. -/
theorem C66_parse (si : Option Isa) {hi : Option Isa} (hh : HypImpl hi) (m m' : Mem) (p q : Ptr) (xs xs' : List Byte) (hl : xs'.length = xs.length)
    (hr : Spec.Reads m p xs) (hr' : Spec.Reads m' p xs') (hw : Spec.Writable m q 16) (hw' : Spec.Writable m' q 16) (hd : Spec.NoOverlap p xs.length q 16) :
    Spec.Lockstep (∃ u, Spec.IsUuid xs u) (∃ u, Spec.IsUuid xs' u)
      ((parse si hi ⟨p, xs.length⟩ q).trace m) ((parse si hi ⟨p, xs.length⟩ q).trace m') := by
  have h' := C60_parse si hh m' p q xs' hr' hw' (hl ▸ hd)
  rw [hl] at h'
  exact lock_parse (E := fun m f => Spec.OnlyChanged m f q 16) (W := fun m f u => Spec.Wrote m f q u) (obl_parse _ q si hi) (C60_parse si hh m p q xs hr hw hd) h'

/-- C66, `parse_simple`. -/
theorem C66_parse_simple (i : Option Isa) (m m' : Mem) (p q : Ptr) (xs xs' : List Byte) (hl : xs'.length = xs.length)
    (hr : Spec.Reads m p xs) (hr' : Spec.Reads m' p xs') (hw : Spec.Writable m q 16) (hw' : Spec.Writable m' q 16) (hd : Spec.NoOverlap p xs.length q 16) :
    Spec.Lockstep (∃ u, Spec.IsUuidSimple xs u) (∃ u, Spec.IsUuidSimple xs' u)
      ((parse_simple i ⟨p, xs.length⟩ q).trace m) ((parse_simple i ⟨p, xs.length⟩ q).trace m') := by
  have h' := C60_parse_simple i m' p q xs' hr' hw' (hl ▸ hd)
  rw [hl] at h'
  exact lock_parse (E := fun m f => Spec.OnlyChanged m f q 16) (W := fun m f u => Spec.Wrote m f q u) (obl_parse_simple _ q i) (C60_parse_simple i m p q xs hr hw hd) h'

/-- C66, `parse_hyphenated`. -/
theorem C66_parse_hyphenated {i : Option Isa} (hi : HypImpl i) (m m' : Mem) (p q : Ptr) (xs xs' : List Byte) (hl : xs'.length = xs.length)
    (hr : Spec.Reads m p xs) (hr' : Spec.Reads m' p xs') (hw : Spec.Writable m q 16) (hw' : Spec.Writable m' q 16) (hd : Spec.NoOverlap p xs.length q 16) :
    Spec.Lockstep (∃ u, Spec.IsUuidHyphenated xs u) (∃ u, Spec.IsUuidHyphenated xs' u)
      ((parse_hyphenated i ⟨p, xs.length⟩ q).trace m) ((parse_hyphenated i ⟨p, xs.length⟩ q).trace m') := by
  have h' := C60_parse_hyphenated hi m' p q xs' hr' hw' (hl ▸ hd)
  rw [hl] at h'
  exact lock_parse (E := fun m f => Spec.OnlyChanged m f q 16) (W := fun m f u => Spec.Wrote m f q u) (obl_parse_hyphenated _ q i) (C60_parse_hyphenated hi m p q xs hr hw hd) h'

end Uuid

namespace Unicode

/-- C66, `is_ascii`, other than the x86-64 code with SSE2: the whole slice is read, whatever is in it. -/
theorem C66_is_ascii (x64 : Bool) (i : Option Isa) (hi : x64 = false ∨ i = none) (m m' : Mem) (p : Ptr) (xs xs' : List Byte) (hl : xs'.length = xs.length)
    (hr : Spec.Reads m p xs) (hr' : Spec.Reads m' p xs') :
    (is_ascii x64 i ⟨p, xs.length⟩).trace m' = (is_ascii x64 i ⟨p, xs.length⟩).trace m := by
  have h' := C60_is_ascii x64 i m' p xs' hr'
  rw [hl] at h'
  refine same_trace (obl_is_ascii _ x64 i ?_) ⟨_, _, C60_is_ascii x64 i m p xs hr⟩ ⟨_, _, h'⟩
  rcases hi with rfl | rfl
  · exact .inl rfl
  · exact .inr fun s h => by cases h

/-- C66, `is_ascii` of the x86-64 code with SSE2: it stops at the first word that is not ASCII, so the accesses do depend on the data. -/
theorem C66_is_ascii_sse2_depends : ∃ (s : Isa) (m m' : Mem) (p : Ptr) (xs xs' : List Byte), xs'.length = xs.length ∧ Spec.Reads m p xs ∧ Spec.Reads m' p xs' ∧
    (is_ascii true (some s) ⟨p, xs.length⟩).trace m' ≠ (is_ascii true (some s) ⟨p, xs.length⟩).trace m := by
  have hr : ∀ a b c d e : Byte, Spec.Reads (Mem.ofBufs [[some a, some b, some c, some d, some e]]) ⟨0, 0⟩ [a, b, c, d, e] := by
    intro a b c d e
    refine ⟨by simp [Mem.ofBufs], fun i h => ?_⟩
    have : i = 0 ∨ i = 1 ∨ i = 2 ∨ i = 3 ∨ i = 4 := by simp at h; omega
    rcases this with rfl | rfl | rfl | rfl | rfl <;> rfl
  refine ⟨.sse2, _, _, _, [0x61#8, 0x61#8, 0x61#8, 0x61#8, 0x61#8], [0x80#8, 0x61#8, 0x61#8, 0x61#8, 0x61#8], rfl, hr _ _ _ _ _, hr _ _ _ _ _, ?_⟩
  decide +kernel

/-- C66, `is_utf32le`. -/
theorem C66_is_utf32le {i : Option Isa} (hi : i ≠ some .sse2 ∧ i ≠ some .ssse3) (m m' : Mem) (p : Ptr) (ws ws' : List (BitVec 32)) (hl : ws'.length = ws.length)
    (hr : Spec.Reads m p (Spec.wordBytes 4 ws)) (hr' : Spec.Reads m' p (Spec.wordBytes 4 ws')) :
    (is_utf32le i ⟨p, ws.length⟩).trace m' = (is_utf32le i ⟨p, ws.length⟩).trace m := by
  have h' := C60_is_utf32le hi m' p ws' hr'
  rw [hl] at h'
  exact same_trace (obl_is_utf32le _ i) ⟨_, _, C60_is_utf32le hi m p ws hr⟩ ⟨_, _, h'⟩

/-- C66, `utf16_swap_endianness` and `utf16_swap_endianness_inplace`. -/
theorem C66_utf16 {i : Option Isa} (m m' : Mem) (p q : Ptr) (ws ws' : List (BitVec 16)) (k : Nat) (hl : ws'.length = ws.length) (hi : SwapImpl .u16 i ws.length)
    (hr : Spec.Reads m p (Spec.wordBytes 2 ws)) (hr' : Spec.Reads m' p (Spec.wordBytes 2 ws')) :
    (swap_endianness_inplace .u16 i ⟨p, ws.length⟩).trace m' = (swap_endianness_inplace .u16 i ⟨p, ws.length⟩).trace m ∧
    (Spec.Writable m q (2 * k) → Spec.Writable m' q (2 * k) → Spec.NoOverlap p (2 * ws.length) q (2 * k) → ws.length ≤ k →
      (swap_endianness .u16 i ⟨p, ws.length⟩ ⟨q, k⟩).trace m' = (swap_endianness .u16 i ⟨p, ws.length⟩ ⟨q, k⟩).trace m) := by
  have hi' : SwapImpl .u16 i ws'.length := hl ▸ hi
  constructor
  · obtain ⟨f, h, -⟩ := C60_utf16_inplace m p ws hi hr
    obtain ⟨f', h', -⟩ := C60_utf16_inplace m' p ws' hi' hr'
    rw [hl] at h'
    exact same_trace (obl_swap_endianness_inplace _ _ i) ⟨_, _, h⟩ ⟨_, _, h'⟩
  · intro hw hw' hd hk
    obtain ⟨f, h, -⟩ := C60_utf16 m p q ws k hi hr hw hd hk
    obtain ⟨f', h', -⟩ := C60_utf16 m' p q ws' k hi' hr' hw' (hl ▸ hd) (hl ▸ hk)
    rw [hl] at h'
    exact same_trace (obl_swap_endianness _ _ _ i) ⟨_, _, h⟩ ⟨_, _, h'⟩

/-- C66, `utf32_swap_endianness` and `utf32_swap_endianness_inplace`. -/
theorem C66_utf32 {i : Option Isa} (m m' : Mem) (p q : Ptr) (ws ws' : List (BitVec 32)) (k : Nat) (hl : ws'.length = ws.length) (hi : SwapImpl .u32 i ws.length)
    (hr : Spec.Reads m p (Spec.wordBytes 4 ws)) (hr' : Spec.Reads m' p (Spec.wordBytes 4 ws')) :
    (swap_endianness_inplace .u32 i ⟨p, ws.length⟩).trace m' = (swap_endianness_inplace .u32 i ⟨p, ws.length⟩).trace m ∧
    (Spec.Writable m q (4 * k) → Spec.Writable m' q (4 * k) → Spec.NoOverlap p (4 * ws.length) q (4 * k) → ws.length ≤ k →
      (swap_endianness .u32 i ⟨p, ws.length⟩ ⟨q, k⟩).trace m' = (swap_endianness .u32 i ⟨p, ws.length⟩ ⟨q, k⟩).trace m) := by
  have hi' : SwapImpl .u32 i ws'.length := hl ▸ hi
  constructor
  · obtain ⟨f, h, -⟩ := C60_utf32_inplace m p ws hi hr
    obtain ⟨f', h', -⟩ := C60_utf32_inplace m' p ws' hi' hr'
    rw [hl] at h'
    exact same_trace (obl_swap_endianness_inplace _ _ i) ⟨_, _, h⟩ ⟨_, _, h'⟩
  · intro hw hw' hd hk
    obtain ⟨f, h, -⟩ := C60_utf32 m p q ws k hi hr hw hd hk
    obtain ⟨f', h', -⟩ := C60_utf32 m' p q ws' k hi' hr' hw' (hl ▸ hd) (hl ▸ hk)
    rw [hl] at h'
    exact same_trace (obl_swap_endianness _ _ _ i) ⟨_, _, h⟩ ⟨_, _, h'⟩

end Unicode

/-! ### Examples -/

/-- A memory with `xs` at offset 1 of allocation 0 and 16 bytes of allocation 1. -/
def oblMem (xs : List Byte) : Mem := ⟨2, fun b => if b = 0 then xs.length + 1 else 16, fun b i => if b = 0 then (if i = 0 then none else xs[i - 1]?) else none⟩

theorem oblMem_reads (xs : List Byte) : Spec.Reads (oblMem xs) ⟨0, 1⟩ xs := by
  refine ⟨by simp [oblMem]; omega, fun i h => ?_⟩
  simp [oblMem, Nat.add_comm 1 i, h]

/-- The hypotheses hold for two texts of the same length, one valid and one not; `QU==` and `QUJD` do not have '=' at the same places, and
decoding them makes different accesses. -/
example : Spec.SameMarks [0x51#8, 0x55#8, 0x4a#8, 0x44#8] [0x51#8, 0x21#8, 0x4a#8, 0x44#8] ∧ Spec.base64 false true [0x41#8, 0x42#8, 0x43#8] = [0x51#8, 0x55#8, 0x4a#8, 0x44#8] ∧
    Spec.NoOverlap ⟨0, 1⟩ 4 ⟨1, 0⟩ 16 ∧ ¬ Spec.SameMarks [0x51#8, 0x51#8, 0x3d#8, 0x3d#8] [0x51#8, 0x55#8, 0x4a#8, 0x44#8] :=
  ⟨by unfold Spec.SameMarks; decide, by decide +kernel, fun i j _ _ h => by simp at h, by unfold Spec.SameMarks; decide⟩

/-- The accesses of formatting a UUID without SIMD: 16 times a byte is read and two are written. -/
example : ((Uuid.format_simple none ⟨0, 0⟩ ⟨1, 0⟩ .lower).trace (Mem.ofBufs [List.replicate 16 (some 0xab#8), List.replicate 32 none])).take 4 =
    [.load ⟨0, 0⟩ 1, .store ⟨1, 0⟩ 1, .store ⟨1, 1⟩ 1, .load ⟨0, 1⟩ 1] := by decide +kernel

/-- Rejecting at different points: the shorter list of accesses is the beginning of the other. -/
example : Spec.Lockstep True False [.load ⟨0, 0⟩ 4, .store ⟨1, 0⟩ 3] [.load ⟨0, 0⟩ 4] ∧ ¬ Spec.Lockstep True True [.load ⟨0, 0⟩ 4, .store ⟨1, 0⟩ 3] [.load ⟨0, 0⟩ 4] ∧
    ¬ Spec.Lockstep False False [.load ⟨0, 0⟩ 4] [.load ⟨0, 0⟩ 3] := by
  refine ⟨⟨fun _ => ⟨[.store ⟨1, 0⟩ 3], rfl⟩, fun h => h.elim, .inr ⟨[.store ⟨1, 0⟩ 3], rfl⟩⟩, fun h => ?_, fun h => ?_⟩
  · have := (h.2.1 trivial).length_le
    simp at this
  · rcases h.2.2 with h | h <;> simp at h

end Simd
