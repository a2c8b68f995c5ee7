import Verif.Lemmas.BorrowExt
import Verif.Props.TreeExt
/-
C98: the functions of `UuidExt` and the formatters of uuid-simd's `ext.rs` obey Stacked Borrows.
-/
namespace Simd
open Spec Borrow
open Dispatch (Runs.ne_sse2 Runs.ne_ssse3)

namespace Borrow

/-- From C85 to what is used of it here. -/
theorem sim_of_obeys {α : Type} {P : Plat} {s : State} {c : Call α} {o : Out α} {G : Nat → Nat → Loan} (h : Obeys P s c o) (hG : ∀ b i, G b i = loans s c b i) :
    Sim (c.borrow P s) o (fun r r' s' => AfterCall s s' G ∧ SameResult s' c r r') (fun s' => AfterCall s s' G) := by
  obtain rfl : G = loans s c := funext fun b => funext (hG b)
  unfold Obeys at h
  unfold Sim
  split at h
  · rename_i e; rw [e]; exact h
  · rename_i e; rw [e]; exact h
  · rename_i e; rw [e]; trivial
  · exact h.elim

theorem fills_parse (M : Machine) {si hi : Option Isa} {xs : List Byte} (hr : M.Runs Dispatch.uuid_parse_simple si ∧ M.Runs Dispatch.uuid_parse_hyphenated hi) (hP : xs.length ≤ M.P.isizeMax) :
    Fills (fun p q => Uuid.parse si hi ⟨p, xs.length⟩ q) (fun p q => Simd.Uuid.parse si hi ⟨p, xs.length⟩ q) xs 16 := fun s p q hs t1 t2 h1 h2 hx hw ho =>
  sim_of_obeys (C85_call M (.uuidParse si hi ⟨p, xs.length⟩ q) s hr hs ⟨t1, t2, h1, h2⟩ ⟨⟨xs, rfl, hx⟩, hw, hP, Tree.small M.P (by show 16 ≤ 36; decide), ho⟩) (loans2 rfl rfl)

theorem fills_parse_simple (M : Machine) {i : Option Isa} {xs : List Byte} (hr : M.Runs Dispatch.uuid_parse_simple i) (hP : xs.length ≤ M.P.isizeMax) :
    Fills (fun p q => Uuid.parse_simple i ⟨p, xs.length⟩ q) (fun p q => Simd.Uuid.parse_simple i ⟨p, xs.length⟩ q) xs 16 := fun s p q hs t1 t2 h1 h2 hx hw ho =>
  sim_of_obeys (C85_call M (.uuidParseSimple i ⟨p, xs.length⟩ q) s hr hs ⟨t1, t2, h1, h2⟩ ⟨⟨xs, rfl, hx⟩, hw, hP, Tree.small M.P (by show 16 ≤ 36; decide), ho⟩) (loans2 rfl rfl)

theorem fills_parse_hyphenated (M : Machine) {i : Option Isa} {xs : List Byte} (hr : M.Runs Dispatch.uuid_parse_hyphenated i) (hP : xs.length ≤ M.P.isizeMax) :
    Fills (fun p q => Uuid.parse_hyphenated i ⟨p, xs.length⟩ q) (fun p q => Simd.Uuid.parse_hyphenated i ⟨p, xs.length⟩ q) xs 16 := fun s p q hs t1 t2 h1 h2 hx hw ho =>
  sim_of_obeys (C85_call M (.uuidParseHyphenated i ⟨p, xs.length⟩ q) s hr hs ⟨t1, t2, h1, h2⟩ ⟨⟨xs, rfl, hx⟩, hw, hP, Tree.small M.P (by show 16 ≤ 36; decide), ho⟩) (loans2 rfl rfl)

theorem fills_format_simple (M : Machine) {i : Option Isa} {case : AsciiCase} {xs : List Byte} (hr : M.Runs Dispatch.uuid_format_simple i) (hl : xs.length = 16) :
    Fills (fun p q => Uuid.format_simple i p q case) (fun p q => Simd.Uuid.format_simple i p q case) xs 32 := fun s p q hs t1 t2 h1 h2 hx hw ho => by
  rw [hl] at h1 ho ⊢
  exact sim_of_obeys (C85_call M (.uuidFormatSimple i case p q) s hr hs ⟨t1, t2, h1, h2⟩ ⟨⟨xs, hl, hx⟩, hw, Tree.small M.P (by show 16 ≤ 36; decide), Tree.small M.P (by show 32 ≤ 36; decide), ho⟩) (loans2 rfl rfl)

theorem fills_format_hyphenated (M : Machine) {i : Option Isa} {case : AsciiCase} {xs : List Byte} (hr : M.Runs Dispatch.uuid_format_hyphenated i) (hl : xs.length = 16) :
    Fills (fun p q => Uuid.format_hyphenated i p q case) (fun p q => Simd.Uuid.format_hyphenated i p q case) xs 36 := fun s p q hs t1 t2 h1 h2 hx hw ho => by
  rw [hl] at h1 ho ⊢
  exact sim_of_obeys (C85_call M (.uuidFormatHyphenated i case p q) s hr hs ⟨t1, t2, h1, h2⟩ ⟨⟨xs, hl, hx⟩, hw, Tree.small M.P (by show 16 ≤ 36; decide), Tree.small M.P (by show 36 ≤ 36; decide), ho⟩) (loans2 rfl rfl)

theorem extLoans_eq {s : State} {c : ExtCall} {p : Ptr} {n : Nat} (h : c.shared = ⟨p, n⟩) : extLoans s c = GH (place s p) n p.buf s.mem.nbuf := by
  funext b i
  unfold extLoans
  rw [h]
  by_cases h1 : In (place s p) n b i
  · rw [if_pos h1]; exact (over_in h1).symm
  · rw [if_neg h1]; exact (over_out (G := fresh s.mem.nbuf) h1).symm

/-- The run with borrow stacks ends like that without: with the same memory and the same bytes. -/
def ExtSame (r : Result (List Byte)) (o : Out (List Byte)) : Prop := Sim r o (fun a b _ => a = b) fun _ => True

/-- The function without borrow stacks, on the memory that the pointers in the call point to. -/
def extPlain (s : State) : ExtCall → Prog (List Byte)
  | .parse si hi src => Simd.Uuid.ext_parse si hi ⟨place s src.ptr, src.len⟩
  | .parseSimple i src => Simd.Uuid.ext_parse_simple i ⟨place s src.ptr, src.len⟩
  | .parseHyphenated i src => Simd.Uuid.ext_parse_hyphenated i ⟨place s src.ptr, src.len⟩
  | .formatSimple i case src => Simd.Uuid.fmt_simple i (place s src) case
  | .formatHyphenated i case src => Simd.Uuid.fmt_hyphenated i (place s src) case

/-- From the two runs to the claim. -/
theorem obeysExt_of {s : State} {c : ExtCall} {xs : List Byte} {p : Ptr} {n : Nat} {o : Out (List Byte)} (hc : c.shared = ⟨p, n⟩)
    (h : Sim (c.borrow s) o (fun a b s' => AfterCall s s' (GH (place s p) n p.buf s.mem.nbuf) ∧ (a = b ∧ Clear s s')) (fun s' => AfterCall s s' (GH (place s p) n p.buf s.mem.nbuf) ∧ Clear s s'))
    (ho : Tree.Plain (fun r => Spec.ExtMeans xs r c) s.mem o) : ExtSame (c.borrow s) o ∧ ObeysExt s c xs := by
  refine ⟨Sim.mono h (fun _ _ _ h => h.2.1) (fun _ _ => trivial), ?_⟩
  rw [← extLoans_eq hc] at h
  unfold Sim at h
  unfold ObeysExt
  cases hx : c.borrow s <;> rw [hx] at h <;> cases o <;> first | exact h.elim | exact ho.elim | skip
  · obtain ⟨rfl, h1, rfl, h2⟩ := h; exact ⟨ho.1, h1, ho.2, h2⟩
  · obtain ⟨rfl, h1, h2⟩ := h; exact ⟨ho.1, h1, ho.2, h2⟩

/-- C98, the parsers. -/
theorem parse_ext {c : ExtCall} {ft : Slice → Ptr → BProg Slice} {fp : Slice → Ptr → Prog Slice} {P : List Byte → Prop} {s : State} {p : Ptr} {xs : List Byte} (hc : c.shared = ⟨p, xs.length⟩)
    (ht : c.borrow = call (arg .shared p xs.length >>= fun p => Uuid.parse_uuid ⟨p, xs.length⟩ ft)) (hf : Fills (fun p q => ft ⟨p, xs.length⟩ q) (fun p q => fp ⟨p, xs.length⟩ q) xs 16)
    (hs : Sound s) (hr : Readable s p xs.length) (hPn : (place s p).buf < s.mem.nbuf) (hx : Reads s.mem (place s p) xs) (hP : ∀ u, P u → u.length = 16)
    (h60 : ∀ m q, Reads m (place s p) xs → Writable m q 16 → NoOverlap (place s p) xs.length q 16 →
      (∀ u, P u → ∃ m', (fp ⟨place s p, xs.length⟩ q).run m = .ok ⟨q, 16⟩ m' ∧ Spec.Wrote m m' q u) ∧
      ((¬ ∃ u, P u) → ∃ m', (fp ⟨place s p, xs.length⟩ q).run m = .err m' ∧ Spec.OnlyChanged m m' q 16))
    (hm : (∀ u, P u → Spec.ExtMeans xs (some u) c) ∧ ((¬ ∃ u, P u) → Spec.ExtMeans xs none c)) :
    ExtSame (c.borrow s) ((Simd.Uuid.parse_uuid ⟨place s p, xs.length⟩ fp).run s.mem) ∧ ObeysExt s c xs := by
  have plain := Tree.plain_parse (Q := fun r => Spec.ExtMeans xs r c) (Simd.Uuid.parse_uuid_any hPn hx hP h60) hm
  refine obeysExt_of (o := (Simd.Uuid.parse_uuid ⟨place s p, xs.length⟩ fp).run s.mem) hc ?_ plain
  · rw [ht]
    refine box_call (F := fun s s' a b => a = b ∧ Clear s s') hs hr rfl hPn (clear_back s) fun s1 p1 hm1 hs1 hr1 hp1 e1 => ?_
    refine parse_uuid_sim hf hs1 hr1 e1 (by rw [hm1]; exact hPn) (by rw [hm1]; exact hx) (fun r m' h => ?_) (by rw [hm1]; exact plain.safe)
    rw [hm1] at h ⊢
    exact Tree.shape_parse hPn hx h60 r m' h

/-- C98, the formatters. -/
theorem format_ext {c : ExtCall} {ft : Ptr → Ptr → AsciiCase → BProg Slice} {fp : Ptr → Ptr → AsciiCase → Prog Slice} {case : AsciiCase} {s : State} {p : Ptr} {xs t : List Byte} {N : Nat} (hc : c.shared = ⟨p, 16⟩)
    (ht : c.borrow = Uuid.format_uuid N p ft case) (hN : N ≠ 0) (hf : Fills (fun p q => ft p q case) (fun p q => fp p q case) xs N) (hl : xs.length = 16) (hs : Sound s) (hr : Readable s p 16)
    (hPn : (place s p).buf < s.mem.nbuf) (hx : Reads s.mem (place s p) xs) (hlt : t.length = N)
    (h60 : ∀ m q, Reads m (place s p) xs → Writable m q N → NoOverlap (place s p) 16 q N → ∃ m', (fp (place s p) q case).run m = .ok ⟨q, N⟩ m' ∧ Spec.Wrote m m' q t)
    (hm : Spec.ExtMeans xs (some t) c) : ExtSame (c.borrow s) ((Simd.Uuid.format_uuid N (place s p) fp case).run s.mem) ∧ ObeysExt s c xs := by
  obtain ⟨m', e, hk⟩ := Simd.Uuid.format_uuid_any hPn hx hlt h60
  refine obeysExt_of (o := (Simd.Uuid.format_uuid N (place s p) fp case).run s.mem) hc ?_ ?_
  · rw [ht]
    refine format_uuid_sim hN hf hl hs hr rfl hPn hx ?_ (by rw [e]; exact nofun)
    obtain ⟨m1, e1, hw⟩ := h60 (s.mem.alloc N) ⟨s.mem.nbuf, 0⟩ (Tree.reads_alloc hPn hx N) (Tree.writable_alloc _ N) (noOverlap_new hPn)
    exact ⟨m1, e1, hw.1, hw.2.1⟩
  · rw [e]; exact ⟨hm, hk⟩

/-- The five functions. -/
theorem ext_both (M : Machine) (c : ExtCall) (s : State) (xs : List Byte) (hr : c.RunsOn M) (hs : Sound s) (hl : Readable s c.shared.ptr c.shared.len) (hb : (place s c.shared.ptr).buf < s.mem.nbuf) (hx : Reads s.mem (place s c.shared.ptr) xs)
    (hn : xs.length = c.shared.len) (hP : xs.length ≤ M.P.isizeMax) :
    ExtSame (c.borrow s) ((extPlain s c).run s.mem) ∧ ObeysExt s c xs := by
  cases c with
  | parse si hi src =>
    obtain ⟨p, n⟩ := src
    obtain rfl : xs.length = n := hn
    have hh : Simd.Uuid.HypImpl hi := ⟨Runs.ne_sse2 hr.2 (by decide), Runs.ne_ssse3 hr.2 (by decide)⟩
    exact parse_ext (P := Spec.IsUuid xs) rfl rfl (fills_parse M hr hP) hs hl hb hx (fun _ => Simd.Uuid.isUuid_value_length) (fun m q => Simd.Uuid.C60_parse si hh m _ q xs) ⟨fun _ h => h, fun h => h⟩
  | parseSimple i src =>
    obtain ⟨p, n⟩ := src
    obtain rfl : xs.length = n := hn
    exact parse_ext (P := Spec.IsUuidSimple xs) rfl rfl (fills_parse_simple M hr hP) hs hl hb hx (fun _ h => h.1) (fun m q => Simd.Uuid.C60_parse_simple i m _ q xs) ⟨fun _ h => h, fun h => h⟩
  | parseHyphenated i src =>
    obtain ⟨p, n⟩ := src
    obtain rfl : xs.length = n := hn
    have hh : Simd.Uuid.HypImpl i := ⟨Runs.ne_sse2 hr (by decide), Runs.ne_ssse3 hr (by decide)⟩
    exact parse_ext (P := Spec.IsUuidHyphenated xs) rfl rfl (fills_parse_hyphenated M hr hP) hs hl hb hx (fun _ h => h.1) (fun m q => Simd.Uuid.C60_parse_hyphenated hh m _ q xs) ⟨fun _ h => h, fun h => h⟩
  | formatSimple i case p =>
    have hn : xs.length = 16 := hn
    exact format_ext rfl rfl (by decide) (fills_format_simple M hr hn) hn hs hl hb hx (by rw [Spec.uuidSimple, Hex.hexEncode_length]; omega) (fun m q => Simd.Uuid.C60_format_simple i case m _ q xs hn) rfl
  | formatHyphenated i case p =>
    have hn : xs.length = 16 := hn
    have hh : Simd.Uuid.HypImpl i := ⟨Runs.ne_sse2 hr (by decide), Runs.ne_ssse3 hr (by decide)⟩
    exact format_ext rfl rfl (by decide) (fills_format_hyphenated M hr hn) hn hs hl hb hx (by rw [Simd.Uuid.uuidHyphenated_eq _ hn, Simd.Uuid.hyph_length (by rw [Hex.hexEncode_length]; omega)])
      (fun m q => Simd.Uuid.C60_format_hyphenated hh case m _ q xs hn) rfl

end Borrow

/-- C98: the functions of `UuidExt` that parse, and `LowerHex`, `UpperHex` and `Display` of the UUID wrappers, obey the aliasing rules of Stacked Borrows: lent a slice they may read, they have no
undefined behaviour and do not panic, return what the English says (the UUID that the text denotes, or an error if there is none; the text of the UUID), leave all memory as it was, leave on the
stacks of the slice at most new items for reading and the other stacks as they were, and leave nothing allocated. -/
theorem C98_call (M : Machine) (c : ExtCall) (s : State) (xs : List Byte) (hr : c.RunsOn M) (hs : Sound s) (hl : Readable s c.shared.ptr c.shared.len) (hb : (place s c.shared.ptr).buf < s.mem.nbuf) (hx : Reads s.mem (place s c.shared.ptr) xs)
    (hn : xs.length = c.shared.len) (hP : xs.length ≤ M.P.isizeMax) : ObeysExt s c xs := (ext_both M c s xs hr hs hl hb hx hn hP).2

/-- C98, afterwards: a caller that could lend bytes for any other call of this kind still can, and they are the same. -/
theorem C98_again (M : Machine) (c d : ExtCall) (s : State) (xs ys : List Byte) (hr : c.RunsOn M) (hs : Sound s) (hl : Readable s c.shared.ptr c.shared.len)
    (hb : (place s c.shared.ptr).buf < s.mem.nbuf) (hx : Reads s.mem (place s c.shared.ptr) xs) (hn : xs.length = c.shared.len) (hP : xs.length ≤ M.P.isizeMax) (hdt : d.shared.ptr.buf < s.next)
    (hd : Readable s d.shared.ptr d.shared.len) (hdb : (place s d.shared.ptr).buf < s.mem.nbuf) (hy : Reads s.mem (place s d.shared.ptr) ys)
    (ht : ∀ b i, In (place s c.shared.ptr) c.shared.len b i → In (place s d.shared.ptr) d.shared.len b i → d.shared.ptr.buf = c.shared.ptr.buf) :
    match c.borrow s with
    | .ok _ s' | .err s' => Sound s' ∧ s'.frame = s.frame ∧ Readable s' d.shared.ptr d.shared.len ∧ Reads s'.mem (place s' d.shared.ptr) ys
    | .panic | .ub => False := by
  have h := C98_call M c s xs hr hs hl hb hx hn hP
  have key : ∀ s', AfterExt s s' c → Sound s' ∧ s'.frame = s.frame ∧ Readable s' d.shared.ptr d.shared.len ∧ Reads s'.mem (place s' d.shared.ptr) ys := fun s' h => by
    refine ⟨h.after.sound hs, h.after.frame, h.after.readable' hdt (fun b i hi => ?_) hd, ?_⟩
    · unfold extLoans
      split
      · rename_i h1; exact .inr (.inl (by rw [ht b i h1 hi]))
      · rw [if_neg (by have := hi.1; omega)]; exact .inl rfl
    · rw [AfterCall.place h.after hdt]
      have hk := h.kept.2 _ hdb
      exact ⟨by rw [show s'.mem.size (place s d.shared.ptr).buf = _ from hk.1]; exact hy.1, fun i hi => by rw [show s'.mem.cell (place s d.shared.ptr).buf _ = _ from hk.2 _]; exact hy.2 i hi⟩
  unfold ObeysExt at h
  split at h
  · rename_i e; rw [e]; exact key _ h.2
  · rename_i e; rw [e]; exact key _ h.2
  · exact h.elim
  · exact h.elim

/-! ### Examples -/

theorem readable_owned (p : Ptr) (n : Nat) (h : p.buf < 2) : Readable owned p n := (lends_owned (.hexCheck none ⟨p, n⟩) h h).readable

example : ∃ xs : List Byte, ObeysExt owned (.formatHyphenated (some .avx2) .lower ⟨0, 0⟩) xs ∧ xs.length = 16 := by
  obtain ⟨xs, hl, hx⟩ := reads_two 0 16 (by decide)
  exact ⟨xs, C98_call sender _ owned xs (Dispatch.runs_first _ _ _ (by decide) (by decide) : Dispatch.Runs sender.build sender.cpu Dispatch.uuid_format_hyphenated _) sound_owned
    (readable_owned _ _ (by decide)) (show (0 : Nat) < 2 by decide) hx hl (by rw [hl]; exact Tree.small _ (by decide)), hl⟩

/-- A text that is no UUID. -/
example : ∃ xs : List Byte, ObeysExt owned (.parse (some .avx2) (some .avx2) ⟨⟨0, 2⟩, 9⟩) xs ∧ xs.length = 9 := by
  obtain ⟨xs, hl, hx⟩ := reads_two 2 9 (by decide)
  exact ⟨xs, C98_call sender _ owned xs ⟨Dispatch.runs_first _ _ _ (by decide) (by decide), Dispatch.runs_first _ _ _ (by decide) (by decide)⟩ sound_owned
    (readable_owned _ _ (by decide)) (show (0 : Nat) < 2 by decide) hx hl (by rw [hl]; exact Tree.small _ (by decide)), hl⟩

namespace Borrow

/-- A state with the text of a UUID: 32 times `A`. -/
def texty : State where
  mem := ⟨1, fun _ => 32, fun _ _ => some 0x41#8⟩
  home _ := 0
  next := 1
  frame := 0
  stack b _ := if b = 0 then [⟨.unique, 0, none⟩] else []

set_option maxRecDepth 4000 in
/-- It is parsed, as the hypotheses of C98 are met. -/
example : ∃ s', (ExtCall.parse (some .avx2) (some .avx2) ⟨⟨0, 0⟩, 32⟩).borrow texty = .ok (List.replicate 16 0xaa#8) s' := by
  have hs : Sound texty := by
    intro b i it hi
    dsimp only [texty] at hi ⊢
    split at hi
    · rw [List.mem_singleton.1 hi]
      exact ⟨Nat.zero_lt_one, nofun⟩
    · cases hi
  have hl : Readable texty ⟨0, 0⟩ 32 := fun b i hi => by
    have e : b = 0 := hi.1
    simp only [texty, e, if_true, Stack.read]; rfl
  obtain ⟨xs, hxs⟩ : ∃ xs, xs = List.replicate 32 0x41#8 := ⟨_, rfl⟩
  have hn : xs.length = 32 := by rw [hxs, List.length_replicate]
  have hx : Reads texty.mem (place texty ⟨0, 0⟩) xs := ⟨by rw [hn]; exact Nat.le_refl 32, fun i hi => by
    have : xs[i] = 0x41#8 := by
      have hm := List.getElem_mem hi
      exact List.eq_of_mem_replicate (n := 32) (by rw [← hxs]; exact hm)
    show some 0x41#8 = _
    rw [this]⟩
  have hv : Spec.IsUuid xs (List.replicate 16 0xaa#8) := by rw [hxs]; exact .inl ⟨by decide, by decide⟩
  have h : ObeysExt texty (.parse (some .avx2) (some .avx2) ⟨⟨0, 0⟩, 32⟩) xs := by
    have hr : ExtCall.RunsOn sender (.parse (some .avx2) (some .avx2) ⟨⟨0, 0⟩, 32⟩) := ⟨Dispatch.runs_first _ _ _ (by decide) (by decide), Dispatch.runs_first _ _ _ (by decide) (by decide)⟩
    have hP : xs.length ≤ sender.P.isizeMax := by rw [hn]; exact Tree.small _ (by decide)
    exact C98_call sender _ texty xs hr hs hl (show (0 : Nat) < 1 by decide) hx hn hP
  unfold ObeysExt at h
  split at h
  · rename_i r s' e
    refine ⟨s', ?_⟩
    rw [e, show r = List.replicate 16 0xaa#8 from ?_]
    have h1 : Spec.IsUuid xs r := h.1
    exact Option.some.inj (((Simd.Uuid.parseS_iff _ _).2 h1).symm.trans ((Simd.Uuid.parseS_iff _ _).2 hv))
  · exact absurd ⟨_, hv⟩ h.1
  · exact h.elim
  · exact h.elim

/-- A local variable that is read after the end of its scope, or filled through a shared reference, is undefined behaviour; so is to use the pointer to it after it has been read as a
variable and written. -/
example : ((do
    let uuid ← alloc 2
    dealloc uuid 2
    prog (loadBytes uuid 1)) owned).isUb = true ∧ ((do
    let uuid ← alloc 2
    let out ← as_ptr uuid 2
    prog (storeBytes out [0#8])) owned).isUb = true ∧ ((do
    let uuid ← alloc 2
    let out ← as_mut_ptr uuid 2
    prog (storeBytes out [0#8])
    prog (storeBytes uuid [0#8])
    prog (storeBytes out [0#8])) owned).isUb = true ∧ ((do
    let uuid ← alloc 2
    let out ← as_mut_ptr uuid 2
    prog (storeBytes out [0#8])
    let _ ← prog (loadBytes uuid 1)
    dealloc uuid 2) owned).isUb = false := by decide

end Borrow
end Simd
