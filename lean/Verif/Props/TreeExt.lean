import Verif.Lemmas.TreeExt
/-
C97: the functions of `UuidExt` and the formatters of uuid-simd's `ext.rs` obey Tree Borrows.
-/
namespace Simd
open Spec (Reads Writable NoOverlap In)
open Dispatch (Runs.ne_sse2 Runs.ne_ssse3)

namespace Tree

theorem small (P : Plat) {n : Nat} (h : n ≤ 36) : n ≤ P.isizeMax := by
  have h1 : 2 ^ 15 ≤ 2 ^ (P.bits - 1) := Nat.pow_le_pow_right (by decide) (by have := P.hbits; omega)
  unfold Plat.isizeMax
  omega

/-- From C93 to what is used of it here. -/
theorem sim_of_obeys {α : Type} {P : Plat} {s : State} {c : Call α} {o : Out α} {G : Nat → Nat → Loan} (h : Obeys P s c o) (hG : ∀ b i, G b i = loans s c b i) :
    Sim (c.tree P s) o (fun r r' s' => AfterCall s s' G ∧ SameResult s s' c r r') (fun s' => AfterCall s s' G) := by
  obtain rfl : G = loans s c := funext fun b => funext (hG b)
  unfold Obeys at h
  unfold Sim
  split at h
  · rename_i e; rw [e]; exact h
  · rename_i e; rw [e]; exact h
  · rename_i e; rw [e]; trivial
  · exact h.elim

theorem fills_parse (M : Machine) {si hi : Option Isa} {xs : List Byte} (hr : M.Runs Dispatch.uuid_parse_simple si ∧ M.Runs Dispatch.uuid_parse_hyphenated hi) (hP : xs.length ≤ M.P.isizeMax) :
    Fills (fun p q => Uuid.parse si hi ⟨p, xs.length⟩ q) (fun p q => Simd.Uuid.parse si hi ⟨p, xs.length⟩ q) xs 16 := fun s p q hs h1 h2 hx hw ho =>
  sim_of_obeys (C93_call M (.uuidParse si hi ⟨p, xs.length⟩ q) s hr hs ⟨h1, h2⟩ ⟨⟨xs, rfl, hx⟩, hw, hP, small M.P (by show 16 ≤ 36; decide), ho⟩) (loans2 rfl rfl)

theorem fills_parse_simple (M : Machine) {i : Option Isa} {xs : List Byte} (hr : M.Runs Dispatch.uuid_parse_simple i) (hP : xs.length ≤ M.P.isizeMax) :
    Fills (fun p q => Uuid.parse_simple i ⟨p, xs.length⟩ q) (fun p q => Simd.Uuid.parse_simple i ⟨p, xs.length⟩ q) xs 16 := fun s p q hs h1 h2 hx hw ho =>
  sim_of_obeys (C93_call M (.uuidParseSimple i ⟨p, xs.length⟩ q) s hr hs ⟨h1, h2⟩ ⟨⟨xs, rfl, hx⟩, hw, hP, small M.P (by show 16 ≤ 36; decide), ho⟩) (loans2 rfl rfl)

theorem fills_parse_hyphenated (M : Machine) {i : Option Isa} {xs : List Byte} (hr : M.Runs Dispatch.uuid_parse_hyphenated i) (hP : xs.length ≤ M.P.isizeMax) :
    Fills (fun p q => Uuid.parse_hyphenated i ⟨p, xs.length⟩ q) (fun p q => Simd.Uuid.parse_hyphenated i ⟨p, xs.length⟩ q) xs 16 := fun s p q hs h1 h2 hx hw ho =>
  sim_of_obeys (C93_call M (.uuidParseHyphenated i ⟨p, xs.length⟩ q) s hr hs ⟨h1, h2⟩ ⟨⟨xs, rfl, hx⟩, hw, hP, small M.P (by show 16 ≤ 36; decide), ho⟩) (loans2 rfl rfl)

theorem fills_format_simple (M : Machine) {i : Option Isa} {case : AsciiCase} {xs : List Byte} (hr : M.Runs Dispatch.uuid_format_simple i) (hl : xs.length = 16) :
    Fills (fun p q => Uuid.format_simple i p q case) (fun p q => Simd.Uuid.format_simple i p q case) xs 32 := fun s p q hs h1 h2 hx hw ho => by
  rw [hl] at h1 ho ⊢
  exact sim_of_obeys (C93_call M (.uuidFormatSimple i case p q) s hr hs ⟨h1, h2⟩ ⟨⟨xs, hl, hx⟩, hw, small M.P (by show 16 ≤ 36; decide), small M.P (by show 32 ≤ 36; decide), ho⟩) (loans2 rfl rfl)

theorem fills_format_hyphenated (M : Machine) {i : Option Isa} {case : AsciiCase} {xs : List Byte} (hr : M.Runs Dispatch.uuid_format_hyphenated i) (hl : xs.length = 16) :
    Fills (fun p q => Uuid.format_hyphenated i p q case) (fun p q => Simd.Uuid.format_hyphenated i p q case) xs 36 := fun s p q hs h1 h2 hx hw ho => by
  rw [hl] at h1 ho ⊢
  exact sim_of_obeys (C93_call M (.uuidFormatHyphenated i case p q) s hr hs ⟨h1, h2⟩ ⟨⟨xs, hl, hx⟩, hw, small M.P (by show 16 ≤ 36; decide), small M.P (by show 36 ≤ 36; decide), ho⟩) (loans2 rfl rfl)

theorem extLoans_eq {s : State} {c : ExtCall} {p : Ptr} {n : Nat} (h : c.shared = ⟨p, n⟩) : extLoans s c = G0 (place s p) n p.buf := by
  funext b i
  unfold extLoans
  rw [h]
  by_cases h1 : In (place s p) n b i
  · rw [if_pos h1]; exact (over_in h1).symm
  · rw [if_neg h1]; exact (over_out (G := nothing) h1).symm

/-- The plain run returns what `Q` allows (`none` is `Err`) and keeps the memory. -/
def Plain (Q : Option (List Byte) → Prop) (m : Mem) : Out (List Byte) → Prop
  | .ok u m' => Q (some u) ∧ Spec.Kept m m'
  | .err m' => Q none ∧ Spec.Kept m m'
  | .panic | .ub => False

theorem Plain.safe {Q : Option (List Byte) → Prop} {m : Mem} {o : Out (List Byte)} (h : Plain Q m o) : o ≠ .ub := by rintro rfl; exact h

/-- The run with borrow trees ends like that without: with the same memory and the same bytes. -/
def ExtSame (r : Result (List Byte)) (o : Out (List Byte)) : Prop := Sim r o (fun a b _ => a = b) fun _ => True

/-- The function without borrow trees, on the memory that the pointers in the call point to. -/
def extPlain (s : State) : ExtCall → Prog (List Byte)
  | .parse si hi src => Simd.Uuid.ext_parse si hi ⟨place s src.ptr, src.len⟩
  | .parseSimple i src => Simd.Uuid.ext_parse_simple i ⟨place s src.ptr, src.len⟩
  | .parseHyphenated i src => Simd.Uuid.ext_parse_hyphenated i ⟨place s src.ptr, src.len⟩
  | .formatSimple i case src => Simd.Uuid.fmt_simple i (place s src) case
  | .formatHyphenated i case src => Simd.Uuid.fmt_hyphenated i (place s src) case

/-- From the two runs to the claim. -/
theorem obeysExt_of {s : State} {c : ExtCall} {xs : List Byte} {p : Ptr} {n : Nat} {o : Out (List Byte)} (hc : c.shared = ⟨p, n⟩)
    (h : Sim (c.tree s) o (fun a b s' => AfterCall s s' (G0 (place s p) n p.buf) ∧ (a = b ∧ Clear s s')) (fun s' => AfterCall s s' (G0 (place s p) n p.buf) ∧ Clear s s'))
    (ho : Plain (fun r => Spec.ExtMeans xs r c) s.mem o) : ExtSame (c.tree s) o ∧ ObeysExt s c xs := by
  refine ⟨Sim.mono h (fun _ _ _ h => h.2.1) (fun _ _ => trivial), ?_⟩
  rw [← extLoans_eq hc] at h
  unfold Sim at h
  unfold ObeysExt
  cases hx : c.tree s <;> rw [hx] at h <;> cases o <;> first | exact h.elim | exact ho.elim | skip
  · obtain ⟨rfl, h1, rfl, h2⟩ := h; exact ⟨ho.1, h1, ho.2, h2⟩
  · obtain ⟨rfl, h1, h2⟩ := h; exact ⟨ho.1, h1, ho.2, h2⟩

/-- What the plain program of a parser does. -/
theorem plain_parse {x : Prog (List Byte)} {m : Mem} {P : List Byte → Prop} {Q : Option (List Byte) → Prop}
    (h : (∀ u, P u → ∃ m', x.run m = .ok u m' ∧ Spec.Kept m m') ∧ ((¬ ∃ u, P u) → ∃ m', x.run m = .err m' ∧ Spec.Kept m m'))
    (hm : (∀ u, P u → Q (some u)) ∧ ((¬ ∃ u, P u) → Q none)) : Plain Q m (x.run m) := by
  by_cases hu : ∃ u, P u
  · obtain ⟨u, hu⟩ := hu
    obtain ⟨m', e, hk⟩ := h.1 u hu
    rw [e]; exact ⟨hm.1 u hu, hk⟩
  · obtain ⟨m', e, hk⟩ := h.2 hu
    rw [e]; exact ⟨hm.2 hu, hk⟩

theorem shape_parse {f : Slice → Ptr → Prog Slice} {P : List Byte → Prop} {m : Mem} {p : Ptr} {xs : List Byte} (hp : p.buf < m.nbuf) (hr : Reads m p xs)
    (hf : ∀ m q, Reads m p xs → Writable m q 16 → NoOverlap p xs.length q 16 →
      (∀ u, P u → ∃ m', (f ⟨p, xs.length⟩ q).run m = .ok ⟨q, 16⟩ m' ∧ Spec.Wrote m m' q u) ∧
      ((¬ ∃ u, P u) → ∃ m', (f ⟨p, xs.length⟩ q).run m = .err m' ∧ Spec.OnlyChanged m m' q 16)) (r : Slice) (m' : Mem)
    (h : (f ⟨p, xs.length⟩ ⟨m.nbuf, 0⟩).run (m.alloc 16) = .ok r m' ∨ (f ⟨p, xs.length⟩ ⟨m.nbuf, 0⟩).run (m.alloc 16) = .err m') : m'.nbuf = (m.alloc 16).nbuf ∧ m'.size = (m.alloc 16).size := by
  obtain ⟨h1, h2⟩ := hf (m.alloc 16) ⟨m.nbuf, 0⟩ (reads_alloc hp hr 16) (writable_alloc m 16) (Borrow.noOverlap_new hp)
  by_cases hu : ∃ u, P u
  · obtain ⟨u, hu⟩ := hu
    obtain ⟨m1, e, hw⟩ := h1 u hu
    rw [e] at h
    rcases h with h | h <;> cases h
    exact ⟨hw.1, hw.2.1⟩
  · obtain ⟨m1, e, hw⟩ := h2 hu
    rw [e] at h
    rcases h with h | h <;> cases h
    exact ⟨hw.1, hw.2.1⟩

/-- C97, the parsers. -/
theorem parse_ext {c : ExtCall} {ft : Slice → Ptr → BProg Slice} {fp : Slice → Ptr → Prog Slice} {P : List Byte → Prop} {s : State} {p : Ptr} {xs : List Byte} (hc : c.shared = ⟨p, xs.length⟩)
    (ht : c.tree = call (arg .shared p xs.length >>= fun p => Uuid.parse_uuid ⟨p, xs.length⟩ ft)) (hf : Fills (fun p q => ft ⟨p, xs.length⟩ q) (fun p q => fp ⟨p, xs.length⟩ q) xs 16)
    (hs : Sound s) (hr : Readable s p xs.length) (hx : Reads s.mem (place s p) xs) (hP : ∀ u, P u → u.length = 16)
    (h60 : ∀ m q, Reads m (place s p) xs → Writable m q 16 → NoOverlap (place s p) xs.length q 16 →
      (∀ u, P u → ∃ m', (fp ⟨place s p, xs.length⟩ q).run m = .ok ⟨q, 16⟩ m' ∧ Spec.Wrote m m' q u) ∧
      ((¬ ∃ u, P u) → ∃ m', (fp ⟨place s p, xs.length⟩ q).run m = .err m' ∧ Spec.OnlyChanged m m' q 16))
    (hm : (∀ u, P u → Spec.ExtMeans xs (some u) c) ∧ ((¬ ∃ u, P u) → Spec.ExtMeans xs none c)) :
    ExtSame (c.tree s) ((Simd.Uuid.parse_uuid ⟨place s p, xs.length⟩ fp).run s.mem) ∧ ObeysExt s c xs := by
  have hPn : (place s p).buf < s.mem.nbuf := hs.alloc _ hr.1
  have plain := plain_parse (Q := fun r => Spec.ExtMeans xs r c) (Simd.Uuid.parse_uuid_any hPn hx hP h60) hm
  refine obeysExt_of (o := (Simd.Uuid.parse_uuid ⟨place s p, xs.length⟩ fp).run s.mem) hc ?_ plain
  · rw [ht]
    refine box_call (F := fun s s' a b => a = b ∧ Clear s s') hs hr rfl (clear_back s) fun s1 p1 hm1 hs1 hr1 hp1 e1 => ?_
    refine parse_uuid_sim hf hs1 hr1 e1 (by rw [hm1]; exact hx) (fun r m' h => ?_) (by rw [hm1]; exact plain.safe)
    rw [hm1] at h ⊢
    exact shape_parse hPn hx h60 r m' h

/-- C97, the formatters. -/
theorem format_ext {c : ExtCall} {ft : Ptr → Ptr → AsciiCase → BProg Slice} {fp : Ptr → Ptr → AsciiCase → Prog Slice} {case : AsciiCase} {s : State} {p : Ptr} {xs t : List Byte} {N : Nat} (hc : c.shared = ⟨p, 16⟩)
    (ht : c.tree = Uuid.format_uuid N p ft case) (hN : N ≠ 0) (hf : Fills (fun p q => ft p q case) (fun p q => fp p q case) xs N) (hl : xs.length = 16) (hs : Sound s) (hr : Readable s p 16)
    (hx : Reads s.mem (place s p) xs) (hlt : t.length = N)
    (h60 : ∀ m q, Reads m (place s p) xs → Writable m q N → NoOverlap (place s p) 16 q N → ∃ m', (fp (place s p) q case).run m = .ok ⟨q, N⟩ m' ∧ Spec.Wrote m m' q t)
    (hm : Spec.ExtMeans xs (some t) c) : ExtSame (c.tree s) ((Simd.Uuid.format_uuid N (place s p) fp case).run s.mem) ∧ ObeysExt s c xs := by
  have hPn : (place s p).buf < s.mem.nbuf := hs.alloc _ hr.1
  obtain ⟨m', e, hk⟩ := Simd.Uuid.format_uuid_any hPn hx hlt h60
  refine obeysExt_of (o := (Simd.Uuid.format_uuid N (place s p) fp case).run s.mem) hc ?_ ?_
  · rw [ht]
    refine format_uuid_sim hN hf hl hs hr rfl hx ?_ (by rw [e]; exact nofun)
    obtain ⟨m1, e1, hw⟩ := h60 (s.mem.alloc N) ⟨s.mem.nbuf, 0⟩ (reads_alloc hPn hx N) (writable_alloc _ N) (Borrow.noOverlap_new hPn)
    exact ⟨m1, e1, hw.1, hw.2.1⟩
  · rw [e]; exact ⟨hm, hk⟩

/-- The five functions. -/
theorem ext_both (M : Machine) (c : ExtCall) (s : State) (xs : List Byte) (hr : c.RunsOn M) (hs : Sound s) (hl : Readable s c.shared.ptr c.shared.len) (hx : Reads s.mem (place s c.shared.ptr) xs)
    (hn : xs.length = c.shared.len) (hP : xs.length ≤ M.P.isizeMax) :
    ExtSame (c.tree s) ((extPlain s c).run s.mem) ∧ ObeysExt s c xs := by
  cases c with
  | parse si hi src =>
    obtain ⟨p, n⟩ := src
    obtain rfl : xs.length = n := hn
    have hh : Simd.Uuid.HypImpl hi := ⟨Runs.ne_sse2 hr.2 (by decide), Runs.ne_ssse3 hr.2 (by decide)⟩
    exact parse_ext (P := Spec.IsUuid xs) rfl rfl (fills_parse M hr hP) hs hl hx (fun _ => Simd.Uuid.isUuid_value_length) (fun m q => Simd.Uuid.C60_parse si hh m _ q xs) ⟨fun _ h => h, fun h => h⟩
  | parseSimple i src =>
    obtain ⟨p, n⟩ := src
    obtain rfl : xs.length = n := hn
    exact parse_ext (P := Spec.IsUuidSimple xs) rfl rfl (fills_parse_simple M hr hP) hs hl hx (fun _ h => h.1) (fun m q => Simd.Uuid.C60_parse_simple i m _ q xs) ⟨fun _ h => h, fun h => h⟩
  | parseHyphenated i src =>
    obtain ⟨p, n⟩ := src
    obtain rfl : xs.length = n := hn
    have hh : Simd.Uuid.HypImpl i := ⟨Runs.ne_sse2 hr (by decide), Runs.ne_ssse3 hr (by decide)⟩
    exact parse_ext (P := Spec.IsUuidHyphenated xs) rfl rfl (fills_parse_hyphenated M hr hP) hs hl hx (fun _ h => h.1) (fun m q => Simd.Uuid.C60_parse_hyphenated hh m _ q xs) ⟨fun _ h => h, fun h => h⟩
  | formatSimple i case p =>
    have hn : xs.length = 16 := hn
    exact format_ext rfl rfl (by decide) (fills_format_simple M hr hn) hn hs hl hx (by rw [Spec.uuidSimple, Hex.hexEncode_length]; omega) (fun m q => Simd.Uuid.C60_format_simple i case m _ q xs hn) rfl
  | formatHyphenated i case p =>
    have hn : xs.length = 16 := hn
    have hh : Simd.Uuid.HypImpl i := ⟨Runs.ne_sse2 hr (by decide), Runs.ne_ssse3 hr (by decide)⟩
    exact format_ext rfl rfl (by decide) (fills_format_hyphenated M hr hn) hn hs hl hx (by rw [Simd.Uuid.uuidHyphenated_eq _ hn, Simd.Uuid.hyph_length (by rw [Hex.hexEncode_length]; omega)])
      (fun m q => Simd.Uuid.C60_format_hyphenated hh case m _ q xs hn) rfl

/-- C97: the functions of `UuidExt` that parse, and `LowerHex`, `UpperHex` and `Display` of the UUID wrappers, obey the aliasing rules of Tree Borrows: lent a slice they may read, they have no undefined
behaviour and do not panic, return what the English says (the UUID that the text denotes, or an error if there is none; the text of the UUID), leave all memory as it was, change the trees of the
caller as at most one read of the slice, and leave nothing allocated. -/
theorem C97_call (M : Machine) (c : ExtCall) (s : State) (xs : List Byte) (hr : c.RunsOn M) (hs : Sound s) (hl : Readable s c.shared.ptr c.shared.len) (hx : Reads s.mem (place s c.shared.ptr) xs)
    (hn : xs.length = c.shared.len) (hP : xs.length ≤ M.P.isizeMax) : ObeysExt s c xs := (ext_both M c s xs hr hs hl hx hn hP).2

/-- C97, afterwards: a caller that could lend bytes for any other call of this kind still can, and they are the same. -/
theorem C97_again (M : Machine) (c d : ExtCall) (s : State) (xs ys : List Byte) (hr : c.RunsOn M) (hs : Sound s) (hl : Readable s c.shared.ptr c.shared.len) (hx : Reads s.mem (place s c.shared.ptr) xs)
    (hn : xs.length = c.shared.len) (hP : xs.length ≤ M.P.isizeMax) (hd : Readable s d.shared.ptr d.shared.len) (hy : Reads s.mem (place s d.shared.ptr) ys)
    (ht : ∀ b i, In (place s c.shared.ptr) c.shared.len b i → In (place s d.shared.ptr) d.shared.len b i → d.shared.ptr.buf = c.shared.ptr.buf) :
    match c.tree s with
    | .ok _ s' | .err s' => Sound s' ∧ s'.guard = s.guard ∧ Readable s' d.shared.ptr d.shared.len ∧ Reads s'.mem (place s' d.shared.ptr) ys
    | .panic | .ub => False := by
  have h := C97_call M c s xs hr hs hl hx hn hP
  have key : ∀ s', AfterExt s s' c → Sound s' ∧ s'.guard = s.guard ∧ Readable s' d.shared.ptr d.shared.len ∧ Reads s'.mem (place s' d.shared.ptr) ys := fun s' h => by
    refine ⟨h.after.sound, h.after.guard, h.after.readable (fun b i hi => ?_) hd, ?_⟩
    · unfold extLoans
      split
      · rename_i h1; exact .inr (.inl (by rw [ht b i h1 hi]))
      · exact .inl rfl
    · rw [AfterCall.place h.after hd.1]
      have hk := h.kept.2 _ (hs.alloc _ hd.1)
      exact ⟨by rw [show s'.mem.size (place s d.shared.ptr).buf = _ from hk.1]; exact hy.1, fun i hi => by rw [show s'.mem.cell (place s d.shared.ptr).buf _ = _ from hk.2 _]; exact hy.2 i hi⟩
  unfold ObeysExt at h
  split at h
  · rename_i e; rw [e]; exact key _ h.2
  · rename_i e; rw [e]; exact key _ h.2
  · exact h.elim
  · exact h.elim

/-! ### Examples -/

example : ∃ xs : List Byte, ObeysExt owned (.formatHyphenated (some .avx2) .lower ⟨0, 0⟩) xs ∧ xs.length = 16 := by
  obtain ⟨xs, hl, hx⟩ := reads_two 0 16 (by decide)
  refine ⟨xs, C97_call sender _ owned xs (Dispatch.runs_first _ _ _ (by decide) (by decide) : Dispatch.Runs sender.build sender.cpu Dispatch.uuid_format_hyphenated _) sound_owned ?_ hx hl
    (by rw [hl]; exact small _ (by decide)), hl⟩
  exact (lends_owned (.isAscii true none ⟨⟨0, 0⟩, 16⟩) (by decide) (by decide) (by decide) (by decide)).readable

/-- A text that is no UUID. -/
example : ∃ xs : List Byte, ObeysExt owned (.parse (some .avx2) (some .avx2) ⟨⟨0, 2⟩, 9⟩) xs ∧ xs.length = 9 := by
  obtain ⟨xs, hl, hx⟩ := reads_two 2 9 (by decide)
  refine ⟨xs, C97_call sender _ owned xs ⟨Dispatch.runs_first _ _ _ (by decide) (by decide), Dispatch.runs_first _ _ _ (by decide) (by decide)⟩ sound_owned ?_ hx hl (by rw [hl]; exact small _ (by decide)), hl⟩
  exact (lends_owned (.isAscii true none ⟨⟨0, 2⟩, 9⟩) (by decide) (by decide) (by decide) (by decide)).readable

/-- A state with the text of a UUID: 32 times `A`. -/
def texty : State where
  mem := ⟨1, fun _ => 32, fun _ _ => some 0x41#8⟩
  home _ := 0
  next := 1
  up t u := t = u
  guard := []
  cell _ _ _ := ⟨.active, true⟩
  freed _ := false

set_option maxRecDepth 4000 in
/-- It is parsed, as the hypotheses of C97 are met. -/
example : ∃ s', (ExtCall.parse (some .avx2) (some .avx2) ⟨⟨0, 0⟩, 32⟩).tree texty = .ok (List.replicate 16 0xaa#8) s' := by
  have hs : Sound texty :=
    ⟨fun u h => by simp [State.prot, texty] at h, fun t h => by show 0 < 1; decide, fun t _ => by simp [texty], fun t u _ h => by simp [texty] at h; omega, fun t u _ h => rfl,
      fun t u v _ h h' => by simp [texty] at h h' ⊢; omega, fun t u v _ h h' => by simp [texty] at h h' ⊢; omega⟩
  have hl : Readable texty ⟨0, 0⟩ 32 :=
    ⟨by show 0 < 1; decide, fun b i hi => ⟨by have := hi.2.2; simpa [texty, place] using this, rfl, fun u hu => by
      obtain rfl : u = 0 := Nat.lt_one_iff.1 hu.1
      simp [State.step, texty, Cell.step, Perm.step]⟩⟩
  obtain ⟨xs, hxs⟩ : ∃ xs, xs = List.replicate 32 0x41#8 := ⟨_, rfl⟩
  have hn : xs.length = 32 := by rw [hxs, List.length_replicate]
  have hx : Reads texty.mem (place texty ⟨0, 0⟩) xs := ⟨by rw [hn]; exact Nat.le_refl 32, fun i hi => by
    have : xs[i] = 0x41#8 := by
      have hm := List.getElem_mem hi
      exact List.eq_of_mem_replicate (n := 32) (by rw [← hxs]; exact hm)
    show some 0x41#8 = _
    rw [this]⟩
  have hv : Spec.IsUuid xs (List.replicate 16 0xaa#8) := by rw [hxs]; exact .inl ⟨by decide, by decide⟩
  have h : ObeysExt texty (.parse (some .avx2) (some .avx2) ⟨⟨0, 0⟩, 32⟩) xs := by
    have hr : ExtCall.RunsOn sender (.parse (some .avx2) (some .avx2) ⟨⟨0, 0⟩, 32⟩) := ⟨Dispatch.runs_first _ _ _ (by decide) (by decide), Dispatch.runs_first _ _ _ (by decide) (by decide)⟩
    have hP : xs.length ≤ sender.P.isizeMax := by rw [hn]; exact small _ (by decide)
    exact C97_call sender _ texty xs hr hs hl hx hn hP
  unfold ObeysExt at h
  split at h
  · rename_i r s' e
    refine ⟨s', ?_⟩
    rw [e, show r = List.replicate 16 0xaa#8 from ?_]
    have h1 : Spec.IsUuid xs r := h.1
    exact Option.some.inj (((Simd.Uuid.parseS_iff _ _).2 h1).symm.trans ((Simd.Uuid.parseS_iff _ _).2 hv))
  · exact absurd ⟨_, hv⟩ h.1
  · exact h.elim
  · exact h.elim

/-- A local variable that is read after the end of its scope, or filled through a shared reference, is undefined behaviour. -/
example : ((do
    let uuid ← alloc 2
    dealloc uuid 2
    prog (loadBytes uuid 1)) owned).isUb = true ∧ ((do
    let uuid ← alloc 2
    let out ← as_ptr uuid 2
    prog (storeBytes out [0#8])) owned).isUb = true ∧ ((do
    let uuid ← alloc 2
    let out ← as_mut_ptr uuid 2
    prog (storeBytes out [0#8])
    let _ ← prog (loadBytes uuid 1)
    dealloc uuid 2) owned).isUb = false := by decide

end Tree
end Simd
