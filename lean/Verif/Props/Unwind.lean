import Verif.Lemmas.Unwind
import Verif.Props.AnywherePar
/-
C88: a call that panics has changed nothing: caught, it is as if it had not been made.
-/
namespace Simd
open Dispatch

/-- With SSE2 or SSSE3 the first vector of a byte swap already panics, before anything has been stored. -/
theorem Unicode.swap_here (t : Elem) {s : Isa} (hs : s = .sse2 ∨ s = .ssse3) {k m p q xs} (hk : t.lanes ≤ k) (hl : xs.length = t.size * k) (hx : HasBytes m p xs) :
    PanicsHere (swap_auto t (some s) p k q) m := by
  have hb := hx.bound
  have hsl := size_lanes t
  have hk1 : t.size * (k / t.lanes * t.lanes) = 32 * (k / t.lanes) := by
    rw [Nat.mul_comm (k / t.lanes), ← Nat.mul_assoc, hsl]
  have hsum : t.size * k = 32 * (k / t.lanes) + t.size * (k % t.lanes) := by
    rw [← hsl, Nat.mul_assoc, ← Nat.mul_add, Nat.div_add_mod]
  have hpos : 0 < k / t.lanes := Nat.div_pos hk (lanes_pos t)
  show PanicsHere (bswap_simd t s p k q) m
  unfold bswap_simd
  rw [hk1, bswap_simd_loop, if_pos (by omega)]
  have hload : (Vs.v256_load s p).run m = .ok (.ofList (xs.take 32)) m := by
    have := wp_out (x := Vs.v256_load s p) (Q := fun a m' => a = .ofList (xs.take 32) ∧ m' = m) (E := fun _ => False) (m := m)
      ((Vs.wp_v256_load (hx.take 32) (by rw [List.length_take]; omega)).2 ⟨rfl, rfl⟩)
    rcases this with ⟨a, m', h, rfl, rfl⟩ | ⟨m', h, hf⟩
    · exact h
    · exact hf.elim
  have hpadd : (padd p (32 * (k / t.lanes))).run m = .ok () m := by
    have := wp_out (x := padd p (32 * (k / t.lanes))) (Q := fun _ m' => m' = m) (E := fun _ => False) (m := m) (wp_padd.2 ⟨by omega, rfl⟩)
    rcases this with ⟨a, m', h, rfl⟩ | ⟨m', h, hf⟩
    · exact h
    · exact hf.elim
  refine .after hpadd (.bind (.after hload ?_))
  rw [swap_simd_none t hs]
  exact .bind (.here m)

theorem returns_ne {α : Type} {x : Prog α} {m : Mem} (h : Spec.Returns x m) : x.run m ≠ .panic := by
  intro h'
  rcases h with ⟨a, m', h⟩ | ⟨m', h⟩ <;> rw [h] at h' <;> cases h'

/-- C88, the functions on slices: the memory at the moment of a panic is that before the call. -/
theorem C88_slices (M : Machine) {α : Type} (c : Call α) (m : Mem) (hr : c.MayRun M) (hb : c.Borrowed M.P m) (hp : (c.prog M.P).run m = .panic) :
    (c.prog M.P).catch_unwind.run m = .ok none m := by
  have hpan : c.Panics := by_contra fun h => returns_ne ((C83_slices M c m hr hb).2 h) hp
  obtain ⟨⟨xs, hl, hx⟩, hw, hP, hP', hb⟩ := hb
  cases c with
  | swap t i src dst =>
    obtain ⟨p, n⟩ := src; obtain ⟨q, d⟩ := dst
    dsimp only [Call.shared, Call.exclusive] at *
    dsimp only [Call.Panics] at hpan
    show PanicsHere (Unicode.swap_endianness t i ⟨p, n⟩ ⟨q, d⟩) m
    unfold Unicode.swap_endianness
    by_cases hd : n ≤ d
    · obtain ⟨rfl, h32⟩ := hpan.resolve_left (by omega)
      rw [show decide (n ≤ d) = true from decide_eq_true hd]
      show PanicsHere (Unicode.swap_auto t (some .ssse3) p n q >>= _ : Prog Slice) m
      exact .bind (Unicode.swap_here t (.inr rfl) ((lanes_le t n).2 h32) hl hx.has)
    · exact .asserts (decide_eq_false hd)
  | swapInplace t i data =>
    obtain ⟨p, n⟩ := data; obtain ⟨xs, hl, hx⟩ := hb
    dsimp only [Call.shared, Call.exclusive] at *
    obtain ⟨rfl, h32⟩ : i = some .ssse3 ∧ 32 ≤ t.size * n := hpan
    exact Unicode.swap_here t (.inr rfl) ((lanes_le t n).2 h32) hl hx.has
  | _ => exact absurd hpan id

/-- C88, the functions that allocate: the memory at the moment of a panic is that before the call; in particular nothing has been allocated that would be lost, and the
vector appended to is as it was. -/
theorem C88_heap (M : Machine) {α : Type} (c : HeapCall α) (m : Mem) (hr : c.RunsOn M) (hb : c.Borrows M.P m) (hp : (c.prog M.P).run m = .panic) :
    (c.prog M.P).catch_unwind.run m = .ok none m := by
  have hb0 := hb
  obtain ⟨⟨xs, hl, hx⟩, hn, hP, hv⟩ := hb
  have hpan : c.Panics M.P m xs := by_contra fun h => returns_ne ((C83_heap M c m hr hb0 xs hl hx).2 h) hp
  have hu := isizeMax_le M.P
  show PanicsHere (c.prog M.P) m
  cases c with
  | base64Encode i config src ty =>
    obtain ⟨hi, url, pad, hc⟩ := hr
    have hi := Runs.ne_sse2 hi (by decide)
    obtain ⟨p, _⟩ := src
    dsimp only [HeapCall.shared] at *; subst hl
    obtain ⟨u, q, hc', hh⟩ := hpan
    have : PanicsHere (Base64.encode_to_boxed_str M.P i config ⟨p, xs.length⟩) m :=
      (Base64.encApi hi config).boxed_here M.P (hc.fits M.P hP) (by rw [← hc'.text] at hh; exact hh)
    cases ty <;> exact this.bind
  | base64EncodeAppend extra i config src v =>
    obtain ⟨hi, url, pad, hc⟩ := hr
    have hi := Runs.ne_sse2 hi (by decide)
    obtain ⟨p, _⟩ := src
    dsimp only [HeapCall.shared] at *; subst hl
    obtain ⟨u, q, hc', hh⟩ := hpan
    exact (Base64.encApi hi config).append_here M.P extra (hc.fits M.P hP) (by rw [← hc'.text] at hh; exact hh)
  | base64DecodeAppend extra i config src v =>
    obtain ⟨hi, url, pad, hc⟩ := hr
    have hi := Runs.ne_sse2 hi (by decide)
    obtain ⟨p, _⟩ := src
    dsimp only [HeapCall.shared] at *; subst hl
    exact (Base64.decApi hi config).append_here M.P extra hx.has hpan
  | forgiving extra fi di src =>
    obtain ⟨p, _⟩ := src
    dsimp only [HeapCall.shared] at *; subst hl
    obtain ⟨⟨x, h1, h2⟩, h3⟩ := hpan
    have hws : Base64.firstWs xs ≠ xs.length := by
      unfold Base64.firstWs
      rw [Ne, List.findIdx_eq_length]
      intro h; exact absurd h2 (by simp [h x h1])
    have hfind : (Base64.find_non_ascii_whitespace fi ⟨p, xs.length⟩).run m = .ok (Base64.firstWs xs) m := by
      have : wp (Base64.find_non_ascii_whitespace fi ⟨p, xs.length⟩) (fun r m' => r = Base64.firstWs xs ∧ m' = m) (fun _ => False) m := Base64.find_wp fi hx.has ⟨rfl, rfl⟩
      rcases wp_out this with ⟨r, m', h, rfl, rfl⟩ | ⟨_, _, h⟩
      · exact h
      · exact h.elim
    show PanicsHere (Base64.forgiving_decode_to_vec M.P extra fi di ⟨p, xs.length⟩) m
    unfold Base64.forgiving_decode_to_vec
    refine .after hfind ?_
    rw [show (assert (decide (Base64.firstWs xs ≤ xs.length)) : Prog Unit) = pure () by rw [decide_eq_true (Base64.firstWs_le xs)]; rfl, prog_pure_bind, if_neg hws]
    refine .bind ?_
    unfold Base64.vec_with_capacity
    rw [if_neg (by dsimp only; omega)]; exact .here m
  | base32Encode w i config src ty =>
    obtain ⟨rfl, hi, hex, pad, hc⟩ := hr
    have hi := Base32.impl_of_runs hi (by decide) (by decide)
    obtain ⟨p, _⟩ := src
    dsimp only [HeapCall.shared] at *; subst hl
    obtain ⟨u, q, hc', hh⟩ := hpan
    have : PanicsHere (Base32.encode_to_boxed_str M.P M.wasm i config ⟨p, xs.length⟩) m :=
      (Base32.encApi M.wasm hi config).boxed_here M.P (hc.fits M.P hP) (by rw [← hc'.text] at hh; exact hh)
    cases ty <;> exact this.bind
  | base32EncodeAppend w extra i config src v =>
    obtain ⟨rfl, hi, hex, pad, hc⟩ := hr
    have hi := Base32.impl_of_runs hi (by decide) (by decide)
    obtain ⟨p, _⟩ := src
    dsimp only [HeapCall.shared] at *; subst hl
    obtain ⟨u, q, hc', hh⟩ := hpan
    exact (Base32.encApi M.wasm hi config).append_here M.P extra (hc.fits M.P hP) (by rw [← hc'.text] at hh; exact hh)
  | base32DecodeAppend w extra i config src v =>
    obtain ⟨rfl, hi, hex, pad, hc⟩ := hr
    have hi := Base32.impl_of_runs hi (by decide) (by decide)
    obtain ⟨p, _⟩ := src
    dsimp only [HeapCall.shared] at *; subst hl
    exact (Base32.decApi M.wasm hi (j := none) (by simp) config).append_here M.P extra hx.has hpan
  | hexEncode i case src ty =>
    obtain ⟨p, _⟩ := src
    dsimp only [HeapCall.shared] at *; subst hl
    have e := (Hex.encApi i case).hlen xs
    have e' : (Hex.encApi i case).elen xs.length = 2 * xs.length := rfl
    have hpan : M.P.usizeMax / 2 < 2 * xs.length := hpan
    have : PanicsHere (Hex.encode_to_boxed_str M.P i ⟨p, xs.length⟩ case) m := (Hex.encApi i case).boxed_here M.P (by omega) (by omega)
    cases ty <;> exact this.bind
  | hexEncodeAppend extra i case src v =>
    obtain ⟨p, _⟩ := src
    dsimp only [HeapCall.shared] at *; subst hl
    have e : ((Hex.encApi i case).enc xs).length = 2 * xs.length := (Hex.encApi i case).hlen xs
    exact (Hex.encApi i case).append_here M.P extra (by omega) (by rw [e]; exact hpan)
  | hexDecodeAppend extra i src v =>
    obtain ⟨p, _⟩ := src
    dsimp only [HeapCall.shared] at *; subst hl
    obtain ⟨he, hg⟩ : xs.length % 2 = 0 ∧ ¬ Spec.CanGrow M.P extra v (xs.length / 2) := hpan
    have hpos : 0 < xs.length := by
      rcases Nat.eq_zero_or_pos xs.length with h0 | h0
      · rw [h0] at hg; exact absurd (.inl (Nat.zero_le _)) hg
      · exact h0
    show PanicsHere (Hex.decode_append M.P extra i ⟨p, xs.length⟩ v) m
    unfold Hex.decode_append Hex.decode_append_vec
    simp only
    rw [if_neg (by omega), if_pos he]
    exact .bind (reserve_here hg m)
  | base64Decode | base32Decode | hexDecode => exact absurd hpan id

/-- C88, `par_encode`, for any number of threads: if it panics (a destination that is too short, see C16), it does so before any of its tasks is started. -/
theorem C88_par_encode (P : Plat) {i : Option Isa} (hi : i ≠ some .sse2) {config url pad} (hv : Base64.IsVariant config url pad)
    (m : Mem) (p q : Ptr) (xs : List Byte) (d k : Nat) (hr : Spec.Reads m p xs) (hw : Spec.Writable m q d) (hd : Spec.NoOverlap p xs.length q d)
    (hx : xs.length ≤ P.isizeMax) (hp : (Base64.par_encode P k i config ⟨p, xs.length⟩ ⟨q, d⟩).run m = .panic) :
    (Base64.par_encode P k i config ⟨p, xs.length⟩ ⟨q, d⟩).catch_unwind.run m = .ok none m := by
  show PanicsHere _ m
  have lift : ∀ {β γ : Type} {o : Option β} {f : β → Prog γ}, (liftO o >>= f).run m = .panic → (∀ b, (f b).run m = .panic → PanicsHere (f b) m) → PanicsHere (liftO o >>= f) m := by
    intro β γ o f h hf
    cases o with
    | none => exact .bind (.here m)
    | some b => exact hf b h
  unfold Base64.par_encode at hp ⊢
  refine lift hp fun q4 hp => ?_
  by_cases hc : xs.length < q4 ∨ k < 2 ∨ xs.length / 3 < k
  · exfalso
    have hp : (if xs.length < q4 ∨ k < 2 ∨ xs.length / 3 < k then _ else _ : Prog (Fork Slice)).run m = .panic := hp
    rw [if_pos hc, run_bind] at hp
    by_cases h : (Spec.base64 url pad xs).length ≤ d
    · obtain ⟨m', he, -⟩ := Base64.C59_encode P hi hv m p q xs d hr hw hd hx h
      rw [he] at hp; cases hp
    · rw [Base64.C59_encode_short P hi hv m p q xs d hx (by omega)] at hp; cases hp
  · have hp : (if xs.length < q4 ∨ k < 2 ∨ xs.length / 3 < k then _ else _ : Prog (Fork Slice)).run m = .panic := hp
    show PanicsHere (if xs.length < q4 ∨ k < 2 ∨ xs.length / 3 < k then _ else _ : Prog (Fork Slice)) m
    rw [if_neg hc] at hp ⊢
    refine lift hp fun el hp => ?_
    by_cases ha : el ≤ d
    · rw [show (assert (decide (el ≤ d)) : Prog Unit) = pure () by rw [decide_eq_true ha]; rfl, prog_pure_bind] at hp ⊢
      refine lift hp fun bp hp => lift hp fun c3 hp => ?_
      unfold par_chunks at hp ⊢
      by_cases h3 : c3 = 0
      · rw [if_pos h3]; exact .bind (.here m)
      · rw [if_neg h3, prog_pure_bind] at hp ⊢
        refine lift hp fun c4 hp => ?_
        by_cases h4 : c4 = 0
        · rw [if_pos h4]; exact .bind (.here m)
        · rw [if_neg h4] at hp; cases hp
    · exact .asserts (decide_eq_false ha)

/-- What the program of a call is. -/
def AnyCall.program (P : Plat) {α : Type} : AnyCall α → Prog α
  | .inl c => c.prog P
  | .inr c => c.prog P

/-- What the caller must guarantee. -/
def AnyCall.Allowed (M : Machine) (m : Mem) {α : Type} : AnyCall α → Prop
  | .inl c => c.MayRun M ∧ c.Borrowed M.P m
  | .inr c => c.RunsOn M ∧ c.Borrows M.P m

/-- C88: catching the panic of a call and going on is going on without having made it; if the call does not panic, catching changes nothing. -/
theorem C88_caught (M : Machine) {α β : Type} (c : AnyCall α) (m : Mem) (h : c.Allowed M m) (k : Option α → Prog β) :
    ((c.program M.P).catch_unwind >>= k).run m = match (c.program M.P).run m with
      | .panic => (k none).run m
      | .ok a m' => (k (some a)).run m'
      | .err m' => .err m'
      | .ub => .ub := by
  have hc := catch_run (c.program M.P) m
  rw [run_bind]
  cases hr : (c.program M.P).run m with
  | ok a m' => rw [hr] at hc; dsimp only at hc ⊢; rw [hc]
  | err m' => rw [hr] at hc; dsimp only at hc ⊢; rw [hc]
  | ub => rw [hr] at hc; dsimp only at hc ⊢; rw [hc]
  | panic =>
    have : (c.program M.P).catch_unwind.run m = .ok none m := by
      cases c with
      | inl c => exact C88_slices M c m h.1 h.2 hr
      | inr c => exact C88_heap M c m h.1 h.2 hr
    rw [this]

/-! ### Examples -/

/-- Sixteen code units with SSSE3, which panics (finding A): the 32 bytes are as they were. -/
example : (Unicode.swap_endianness_inplace .u16 (some .ssse3) ⟨⟨0, 0⟩, 16⟩).catch_unwind.run zeros = .ok none zeros := by
  have hr : ssse3Only.Runs unicode_utf16_swap (some .ssse3) := runs_first _ _ _ (by decide) (by decide)
  have hb : (Call.swapInplace .u16 (some .ssse3) ⟨⟨0, 0⟩, 16⟩).Borrowed ssse3Only.P zeros :=
    ⟨⟨[], rfl, Nat.zero_le _, fun i h => absurd h (Nat.not_lt_zero _)⟩, by simp [Call.exclusive, Unicode.Elem.size, zeros, Mem.ofBufs, Spec.Writable], Nat.zero_le _,
      by show 2 * 16 ≤ 2 ^ 63 - 1; omega, List.replicate 32 0#8, by simp [Call.exclusive, Unicode.Elem.size], zeros_reads (by omega)⟩
  exact C88_slices ssse3Only (.swapInplace .u16 (some .ssse3) ⟨⟨0, 0⟩, 16⟩) zeros hr hb
    ((C83_slices ssse3Only (.swapInplace .u16 (some .ssse3) ⟨⟨0, 0⟩, 16⟩) zeros hr hb).1 ⟨rfl, by decide⟩)

/-- Appending the text of two bytes to a vector that cannot grow, for the allocator would round up beyond `isize::MAX`. -/
example : (Base64.encode_append sender.P (2 ^ 63) (some .avx2) Base64.STANDARD ⟨⟨0, 1⟩, 2⟩ ⟨1, 1, 3⟩).catch_unwind.run heapMem = .ok none heapMem := by
  have hr : (HeapCall.base64EncodeAppend (2 ^ 63) (some .avx2) Base64.STANDARD ⟨⟨0, 1⟩, 2⟩ ⟨1, 1, 3⟩).RunsOn sender :=
    ⟨runs_first _ _ _ (by decide) (by decide), false, true, by unfold Base64.IsVariant; simp⟩
  have hb : (HeapCall.base64EncodeAppend (2 ^ 63) (some .avx2) Base64.STANDARD ⟨⟨0, 1⟩, 2⟩ ⟨1, 1, 3⟩).Borrows sender.P heapMem :=
    ⟨⟨_, rfl, heapMem_reads⟩, by decide, by decide, fun v hv => by
      cases hv; exact ⟨⟨_, heapMem_vec⟩, by decide, by decide⟩⟩
  refine C88_heap sender _ heapMem hr hb ((C83_heap sender _ heapMem hr hb _ rfl heapMem_reads).1
    ⟨false, true, by unfold Base64.IsVariant; simp, fun h => ?_⟩)
  rcases h.2 with h | h
  · rw [Base64.base64_length] at h; revert h; decide
  · have : sender.P.isizeMax < 2 ^ 63 := by decide
    omega

/-- A program that stores and then panics does not satisfy the claim. -/
example : ¬ PanicsHere (storeBytes ⟨0, 0⟩ [1#8] >>= fun _ => (.panic : Prog Unit)) zeros := by
  intro h
  injection h with _ h
  have := congrFun (congrFun (congrArg Mem.cell h) 0) 0
  revert this; decide

end Simd
