import Verif.Lemmas.UuidApi
/-
uuid-simd: properties C38-C42 and C50.

Conventions. `i : Option Isa` is the implementation the dispatcher picked (`none` = scalar fallback). The simple functions work
for every instruction set; the hyphenated ones for every instruction set except plain SSE2 and SSSE3 (`HypImpl`), which
`multiversion.rs` never selects (`targets_ok`). The source is buffer 0 and the destination array is buffer 1, each being a whole
allocation, so any access outside them is undefined behaviour. `ds : List Cell` is the previous content of the destination,
possibly uninitialised. A statement `run … = .ok …` or `= .err …` in particular says: no panic, no undefined behaviour.
-/
namespace Simd.Uuid
open Vs Hex

/-- Every implementation the crate dispatches to is covered by the theorems. -/
theorem targets_ok : HypImpl none ∧ ∀ s ∈ hyphenated_targets, HypImpl (some s) := by
  unfold HypImpl hyphenated_targets
  decide

/-- The three parsers on a source and a 16-byte destination. -/
theorem parser_out {x : Prog Slice} {spec : List Byte → Option (List Byte)} {xs : List Byte} {ds : List Cell} (hd : ds.length = 16)
    (h : Does x ⟨⟨1, 0⟩, 16⟩ spec xs ⟨1, 0⟩ 16 (Mem.ofBufs [xs.map some, ds])) :
    (∀ u, spec xs = some u → x.run (Mem.ofBufs [xs.map some, ds]) = .ok (whole 1 16) (Mem.ofBufs [xs.map some, u.map some])) ∧
    (spec xs = none → ∃ ds' : List Cell, ds'.length = 16 ∧ x.run (Mem.ofBufs [xs.map some, ds]) = .err (Mem.ofBufs [xs.map some, ds'])) := by
  constructor
  · intro u hu
    have := (h.copy_ok (by omega) hu).2
    rw [this, List.drop_eq_nil_of_le (by omega), List.append_nil]; rfl
  · intro hn
    obtain ⟨ds', hr, hl, -⟩ := h.copy_err (by omega) hn
    exact ⟨ds', by omega, hr⟩

theorem parser_iff {x : Prog Slice} {spec : List Byte → Option (List Byte)} {xs : List Byte} {ds : List Cell} (hd : ds.length = 16)
    (h : Does x ⟨⟨1, 0⟩, 16⟩ spec xs ⟨1, 0⟩ 16 (Mem.ofBufs [xs.map some, ds])) (u : List Byte) :
    x.run (Mem.ofBufs [xs.map some, ds]) = .ok (whole 1 16) (Mem.ofBufs [xs.map some, u.map some]) ↔ spec xs = some u := by
  refine ⟨fun hr => ?_, (parser_out hd h).1 u⟩
  cases hs : spec xs with
  | none =>
    obtain ⟨ds', _, he⟩ := (parser_out hd h).2 hs
    rw [he] at hr; cases hr
  | some v =>
    have hv := (parser_out hd h).1 v hs
    rw [hr] at hv
    injection hv with _ hv
    have h1 : (Mem.ofBufs [xs.map some, u.map some]).view ⟨⟨1, 0⟩, u.length⟩ = u.map some :=
      (hasBytes_ofBufs' (bufs := [xs.map some, u.map some]) (b := 1) rfl).view
    have hl : (Mem.ofBufs [xs.map some, u.map some]).size 1 = (Mem.ofBufs [xs.map some, v.map some]).size 1 := by rw [hv]
    have hl' : u.length = v.length := by simpa [Mem.ofBufs] using hl
    rw [hv, hl', (hasBytes_ofBufs' (bufs := [xs.map some, v.map some]) (b := 1) rfl).view] at h1
    rw [map_some_inj h1]

theorem canWrite16 {a ds : List Cell} (hd : ds.length = 16) : CanWrite (Mem.ofBufs [a, ds]) ⟨1, 0⟩ 16 := canWrite_ofBufs (by omega)

theorem spec_none {spec : List Byte → Option (List Byte)} {xs : List Byte} {P : List Byte → Prop} (h : ∀ u, spec xs = some u ↔ P u) (hn : ¬ ∃ u, P u) : spec xs = none := by
  cases hs : spec xs with
  | none => rfl
  | some u => exact (hn ⟨u, (h u).1 hs⟩).elim

/-- C38: `parse_simple` yields `u` exactly on the simple forms of `u`. -/
theorem C38_parse_simple (i : Option Isa) (xs u : List Byte) (ds : List Cell) (hd : ds.length = 16) :
    (parse_simple i (whole 0 xs.length) ⟨1, 0⟩).run (Mem.ofBufs [xs.map some, ds]) = .ok (whole 1 16) (Mem.ofBufs [xs.map some, u.map some]) ↔
      Spec.IsUuidSimple xs u := by
  rw [← simpleS_iff]
  exact parser_iff hd (parse_simple_does i (hasBytes_ofBufs' rfl) (canWrite16 hd) (.inl (by simp))) u

/-- C38: `parse_simple` reports an error on everything else. -/
theorem C38_parse_simple_err (i : Option Isa) (xs : List Byte) (ds : List Cell) (hd : ds.length = 16) (hn : ¬ ∃ u, Spec.IsUuidSimple xs u) :
    ∃ ds' : List Cell, ds'.length = 16 ∧
      (parse_simple i (whole 0 xs.length) ⟨1, 0⟩).run (Mem.ofBufs [xs.map some, ds]) = .err (Mem.ofBufs [xs.map some, ds']) :=
  (parser_out hd (parse_simple_does i (hasBytes_ofBufs' rfl) (canWrite16 hd) (.inl (by simp)))).2 (spec_none (simpleS_iff xs) hn)

/-- C38: `parse_hyphenated` yields `u` exactly on the hyphenated forms of `u`. -/
theorem C38_parse_hyphenated {i : Option Isa} (hi : HypImpl i) (xs u : List Byte) (ds : List Cell) (hd : ds.length = 16) :
    (parse_hyphenated i (whole 0 xs.length) ⟨1, 0⟩).run (Mem.ofBufs [xs.map some, ds]) = .ok (whole 1 16) (Mem.ofBufs [xs.map some, u.map some]) ↔
      Spec.IsUuidHyphenated xs u := by
  rw [← hyphenatedS_iff]
  exact parser_iff hd (parse_hyphenated_does hi (hasBytes_ofBufs' rfl) (canWrite16 hd) (.inl (by simp))) u

/-- C38: `parse_hyphenated` reports an error on everything else. -/
theorem C38_parse_hyphenated_err {i : Option Isa} (hi : HypImpl i) (xs : List Byte) (ds : List Cell) (hd : ds.length = 16) (hn : ¬ ∃ u, Spec.IsUuidHyphenated xs u) :
    ∃ ds' : List Cell, ds'.length = 16 ∧
      (parse_hyphenated i (whole 0 xs.length) ⟨1, 0⟩).run (Mem.ofBufs [xs.map some, ds]) = .err (Mem.ofBufs [xs.map some, ds']) :=
  (parser_out hd (parse_hyphenated_does hi (hasBytes_ofBufs' rfl) (canWrite16 hd) (.inl (by simp)))).2 (spec_none (hyphenatedS_iff xs) hn)

/-- C38: `parse_hyphenated` accepts exactly the texts that have 36 characters, `-` at offsets 8, 13, 18, 23 and hexadecimal digits of either case elsewhere. -/
theorem C38_hyphenated_shape (xs : List Byte) : (∃ u, Spec.IsUuidHyphenated xs u) ↔ xs.length = 36 ∧
    ∀ k, k < 36 → if k = 8 ∨ k = 13 ∨ k = 18 ∨ k = 23 then xs.getD k 0 = 0x2d#8 else Spec.isHexDigit (xs.getD k 0) := by
  have key : xs.length = 36 → ((∃ u, Spec.IsUuidHyphenated xs u) ↔ dashes xs = true ∧ hexOk (digits xs) = true) := by
    intro hl
    simp only [← isHyphenated_iff hl]
    unfold hypDec hexDec decB hexOk
    cases dashes xs <;> simp
  have dg : ∀ f : Nat → Byte, digits ((List.range 36).map f) = [0, 1, 2, 3, 4, 5, 6, 7, 9, 10, 11, 12, 14, 15, 16, 17, 19, 20, 21, 22, 24, 25, 26, 27, 28, 29, 30, 31,
      32, 33, 34, 35].map f := fun f => rfl
  have gd : ∀ (f : Nat → Byte) k, k < 36 → ((List.range 36).map f).getD k 0 = f k := by
    intro f k hk
    rw [List.getD_eq_getElem?_getD, List.getElem?_map, List.getElem?_range hk]; rfl
  constructor
  · rintro ⟨u, h⟩
    have hl := isHyphenated_length h
    refine ⟨hl, ?_⟩
    obtain ⟨hd, ho⟩ := (key hl).1 ⟨u, h⟩
    rw [hexOk_spec] at ho
    obtain ⟨f, rfl⟩ := list_map hl
    rw [dg] at ho
    simp only [dashes, Bool.and_eq_true, beq_iff_eq, gd f _ (show 8 < 36 by omega), gd f _ (show 13 < 36 by omega), gd f _ (show 18 < 36 by omega),
      gd f _ (show 23 < 36 by omega)] at hd
    intro k hk
    rw [gd f k hk]
    split <;> rename_i hc
    · rcases hc with rfl | rfl | rfl | rfl
      · exact hd.1.1.1
      · exact hd.1.1.2
      · exact hd.1.2
      · exact hd.2
    · refine ho _ (List.mem_map.2 ⟨k, ?_, rfl⟩)
      simp; omega
  · rintro ⟨hl, h⟩
    rw [key hl, hexOk_spec]
    obtain ⟨f, rfl⟩ := list_map hl
    have h' : ∀ k, k < 36 → if k = 8 ∨ k = 13 ∨ k = 18 ∨ k = 23 then f k = 0x2d#8 else Spec.isHexDigit (f k) := by
      intro k hk; have := h k hk; rwa [gd f k hk] at this
    refine ⟨?_, ?_⟩
    · simp only [dashes, Bool.and_eq_true, beq_iff_eq, gd f _ (show 8 < 36 by omega), gd f _ (show 13 < 36 by omega), gd f _ (show 18 < 36 by omega),
        gd f _ (show 23 < 36 by omega)]
      exact ⟨⟨⟨by simpa using h' 8 (by omega), by simpa using h' 13 (by omega)⟩, by simpa using h' 18 (by omega)⟩, by simpa using h' 23 (by omega)⟩
    · intro c hc
      rw [dg] at hc
      obtain ⟨k, hk, rfl⟩ := List.mem_map.1 hc
      have hk36 : k < 36 ∧ ¬ (k = 8 ∨ k = 13 ∨ k = 18 ∨ k = 23) := by
        simp at hk; omega
      have := h' k hk36.1
      rwa [if_neg hk36.2] at this

/-- The text `550e8400-e29b-41d4-a716-446655440000` in mixed case and its value. -/
def sampleText : List Byte := Spec.ascii "550E8400-e29b-41D4-a716-446655440000"
def sample : List Byte := [0x55, 0x0e, 0x84, 0x00, 0xe2, 0x9b, 0x41, 0xd4, 0xa7, 0x16, 0x44, 0x66, 0x55, 0x44, 0x00, 0x00]

example : Spec.IsUuidHyphenated sampleText sample := by unfold Spec.IsUuidHyphenated; decide +kernel
example : Spec.IsUuidSimple (Spec.ascii "550e8400e29b41d4A716446655440000") sample := by unfold Spec.IsUuidSimple; decide +kernel

/-- C39: `parse` yields `u` exactly on the four forms of `u`. -/
theorem C39_parse (si : Option Isa) {hi : Option Isa} (hh : HypImpl hi) (xs u : List Byte) (ds : List Cell) (hd : ds.length = 16) :
    (parse si hi (whole 0 xs.length) ⟨1, 0⟩).run (Mem.ofBufs [xs.map some, ds]) = .ok (whole 1 16) (Mem.ofBufs [xs.map some, u.map some]) ↔
      Spec.IsUuid xs u := by
  rw [← parseS_iff]
  exact parser_iff hd (parse_does si hh (hasBytes_ofBufs' rfl) (canWrite16 hd) (.inl (by simp))) u

/-- C39: everything else is an error. -/
theorem C39_parse_err (si : Option Isa) {hi : Option Isa} (hh : HypImpl hi) (xs : List Byte) (ds : List Cell) (hd : ds.length = 16) (hn : ¬ ∃ u, Spec.IsUuid xs u) :
    ∃ ds' : List Cell, ds'.length = 16 ∧
      (parse si hi (whole 0 xs.length) ⟨1, 0⟩).run (Mem.ofBufs [xs.map some, ds]) = .err (Mem.ofBufs [xs.map some, ds']) :=
  (parser_out hd (parse_does si hh (hasBytes_ofBufs' rfl) (canWrite16 hd) (.inl (by simp)))).2 (spec_none (parseS_iff xs) hn)

example : Spec.IsUuid (Spec.ascii "{550E8400-e29b-41D4-a716-446655440000}") sample :=
  .inr (.inr (.inl ⟨sampleText, by decide +kernel, by unfold Spec.IsUuidHyphenated; decide +kernel⟩))
example : Spec.IsUuid (Spec.ascii "urn:uuid:550E8400-e29b-41D4-a716-446655440000") sample :=
  .inr (.inr (.inr ⟨sampleText, by decide +kernel, by unfold Spec.IsUuidHyphenated; decide +kernel⟩))
/-- A closing brace is missing. -/
example : ¬ ∃ u, Spec.IsUuid (Spec.ascii "{550e8400-e29b-41d4-a716-446655440000)") u := by
  rintro ⟨u, h⟩
  have := (parseS_iff _ u).2 h
  rw [show parseS (Spec.ascii "{550e8400-e29b-41d4-a716-446655440000)") = none by decide +kernel] at this
  cases this

/-- C40: `format_simple` fills the 32 bytes with the simple form in the requested case. -/
theorem C40_format_simple (i : Option Isa) (case : AsciiCase) (u : List Byte) (ds : List Cell) (hu : u.length = 16) (hd : ds.length = 32) :
    (format_simple i ⟨0, 0⟩ ⟨1, 0⟩ case).run (Mem.ofBufs [u.map some, ds]) =
      .ok (whole 1 32) (Mem.ofBufs [u.map some, (Spec.uuidSimple (case == .upper) u).map some]) := by
  have := ((format_simple_does i case (p := ⟨0, 0⟩) (hasBytes_ofBufs' rfl) hu (canWrite_ofBufs (a := u.map some) (ds := ds) (by omega)) (.inl (by simp))).copy_ok (by omega) rfl).2
  rw [this, List.drop_eq_nil_of_le (by omega), List.append_nil, hexEnc_spec]; rfl

/-- C40: `format_hyphenated` fills the 36 bytes with the hyphenated form in the requested case. -/
theorem C40_format_hyphenated {i : Option Isa} (hi : HypImpl i) (case : AsciiCase) (u : List Byte) (ds : List Cell) (hu : u.length = 16) (hd : ds.length = 36) :
    (format_hyphenated i ⟨0, 0⟩ ⟨1, 0⟩ case).run (Mem.ofBufs [u.map some, ds]) =
      .ok (whole 1 36) (Mem.ofBufs [u.map some, (Spec.uuidHyphenated (case == .upper) u).map some]) := by
  have := ((format_hyphenated_does hi case (p := ⟨0, 0⟩) (hasBytes_ofBufs' rfl) hu (canWrite_ofBufs (a := u.map some) (ds := ds) (by omega)) (.inl (by simp))).copy_ok (by omega) rfl).2
  rw [this, List.drop_eq_nil_of_le (by omega), List.append_nil, hyph_enc case hu]; rfl

example : sample.length = 16 ∧ Spec.uuidSimple true sample = Spec.ascii "550E8400E29B41D4A716446655440000" ∧
    Spec.uuidHyphenated false sample = Spec.ascii "550e8400-e29b-41d4-a716-446655440000" := by decide +kernel

/-- Both cases denote the same value. -/
theorem lower_simple (b : Bool) (u : List Byte) : (Spec.uuidSimple b u).map Spec.toLower = Spec.uuidSimple false u := by
  have key : ∀ b : Bool, ∀ n : Fin 16, Spec.toLower (Spec.hexDigit b n.val) = Spec.hexDigit false n.val := by decide
  unfold Spec.uuidSimple Spec.hexEncode
  rw [List.map_flatMap]
  congr 1
  funext x
  have h1 := key b ⟨x.toNat / 16, by omega⟩
  have h2 := key b ⟨x.toNat % 16, by omega⟩
  simp only [List.map_cons, List.map_nil]
  rw [h1, h2]

theorem lower_hyphenated (b : Bool) (u : List Byte) : (Spec.uuidHyphenated b u).map Spec.toLower = Spec.uuidHyphenated false u := by
  have h : ∀ v, (Spec.hexEncode b v).map Spec.toLower = Spec.hexEncode false v := lower_simple b
  have hd : Spec.toLower 0x2d#8 = 0x2d#8 := by decide
  simp only [Spec.uuidHyphenated, List.map_append, List.map_cons, List.map_nil, h, hd]

/-- C41: formatting in either form and case and parsing the text gives back the value, whatever the instruction sets. -/
theorem C41_round_trip (f si : Option Isa) {hf hi : Option Isa} (hhf : HypImpl hf) (hh : HypImpl hi) (case : AsciiCase) (hyphens : Bool) (u : List Byte) (ts ds : List Cell)
    (hu : u.length = 16) (ht : ts.length = if hyphens then 36 else 32) (hd : ds.length = 16) :
    ∃ text : List Byte, (do
      let text ← if hyphens then format_hyphenated hf ⟨0, 0⟩ ⟨1, 0⟩ case else format_simple f ⟨0, 0⟩ ⟨1, 0⟩ case
      parse si hi text ⟨2, 0⟩).run (Mem.ofBufs [u.map some, ts, ds]) =
      .ok (whole 2 16) (Mem.ofBufs [u.map some, text.map some, u.map some]) := by
  have hx : HasBytes (Mem.ofBufs [u.map some, ts, ds]) ⟨0, 0⟩ u := hasBytes_ofBufs' rfl
  have hparse : ∀ text : List Byte, Spec.IsUuid text u → (parse si hi (whole 1 text.length) ⟨2, 0⟩).run (Mem.ofBufs [u.map some, text.map some, ds]) =
      .ok (whole 2 16) (Mem.ofBufs [u.map some, text.map some, u.map some]) := by
    intro text h
    have := (parse_does si hh (m := Mem.ofBufs [u.map some, text.map some, ds]) (p := ⟨1, 0⟩) (q := ⟨2, 0⟩) (xs := text) (hasBytes_ofBufs' rfl)
      (by unfold CanWrite; rw [ofBufs_size (l := ds) rfl]; simp [hd]) (.inl (by simp))).ok ((parseS_iff text u).2 h)
    refine this.2.trans ?_
    rw [ofBufs_write (l := ds) rfl (by omega), List.drop_eq_nil_of_le (by omega)]
    simp [whole]
  cases hyphens with
  | false =>
    simp only [Bool.false_eq_true, if_false] at ht ⊢
    refine ⟨Spec.uuidSimple (case == .upper) u, ?_⟩
    have hlen : (Spec.uuidSimple (case == .upper) u).length = 32 := by rw [Spec.uuidSimple, hexEncode_length]; omega
    have h1 := (format_simple_does f case hx hu (q := ⟨1, 0⟩) (by unfold CanWrite; rw [ofBufs_size (l := ts) rfl]; simp [ht]) (.inl (by simp))).ok rfl
    rw [run_bind, h1.2, ofBufs_write (l := ts) rfl (by rw [h1.1]; omega), List.drop_eq_nil_of_le (by rw [h1.1]; omega)]
    have := hparse (Spec.uuidSimple (case == .upper) u) (.inl ⟨hu, lower_simple _ u⟩)
    rw [hlen] at this
    simpa [hexEnc_spec, whole, Spec.uuidSimple] using this
  | true =>
    simp only [if_true] at ht ⊢
    refine ⟨Spec.uuidHyphenated (case == .upper) u, ?_⟩
    have h1 := (format_hyphenated_does hhf case hx hu (q := ⟨1, 0⟩) (by unfold CanWrite; rw [ofBufs_size (l := ts) rfl]; simp [ht]) (.inl (by simp))).ok rfl
    have hlen : (Spec.uuidHyphenated (case == .upper) u).length = 36 := by rw [← hyph_enc case hu]; exact h1.1
    rw [run_bind, h1.2, ofBufs_write (l := ts) rfl (by rw [h1.1]; omega), List.drop_eq_nil_of_le (by rw [h1.1]; omega)]
    have := hparse (Spec.uuidHyphenated (case == .upper) u) (.inr (.inl ⟨hu, lower_hyphenated _ u⟩))
    rw [hlen] at this
    simpa [hyph_enc case hu, whole] using this

example : sample.length = 16 ∧ (List.replicate 36 (none : Cell)).length = (if true then 36 else 32) := by decide

/-- Two parsers that compute the same function have the same successful outcome and fail together. -/
theorem same_outcome {x y : Prog Slice} {spec : List Byte → Option (List Byte)} {xs : List Byte} {ds : List Cell} (hd : ds.length = 16)
    (h : Does x ⟨⟨1, 0⟩, 16⟩ spec xs ⟨1, 0⟩ 16 (Mem.ofBufs [xs.map some, ds])) (h' : Does y ⟨⟨1, 0⟩, 16⟩ spec xs ⟨1, 0⟩ 16 (Mem.ofBufs [xs.map some, ds])) :
    (∃ u : List Byte, u.length = 16 ∧ x.run (Mem.ofBufs [xs.map some, ds]) = .ok (whole 1 16) (Mem.ofBufs [xs.map some, u.map some]) ∧
      y.run (Mem.ofBufs [xs.map some, ds]) = .ok (whole 1 16) (Mem.ofBufs [xs.map some, u.map some])) ∨
    ∃ d1 d2 : List Cell, d1.length = 16 ∧ d2.length = 16 ∧ x.run (Mem.ofBufs [xs.map some, ds]) = .err (Mem.ofBufs [xs.map some, d1]) ∧
      y.run (Mem.ofBufs [xs.map some, ds]) = .err (Mem.ofBufs [xs.map some, d2]) := by
  cases hs : spec xs with
  | some u => exact .inl ⟨u, (h.copy_ok (by omega) hs).1, (parser_out hd h).1 u hs, (parser_out hd h').1 u hs⟩
  | none =>
    obtain ⟨d1, l1, e1⟩ := (parser_out hd h).2 hs
    obtain ⟨d2, l2, e2⟩ := (parser_out hd h').2 hs
    exact .inr ⟨d1, d2, l1, l2, e1, e2⟩

/-- C42: the parsers give the same result for every choice of instruction sets; in every case there is neither a panic nor an
access outside source and destination, and the source is unchanged. -/
theorem C42_parse (si sj : Option Isa) {hi hj : Option Isa} (hhi : HypImpl hi) (hhj : HypImpl hj) (xs : List Byte) (ds : List Cell) (hd : ds.length = 16) :
    let Same (x y : Prog Slice) : Prop :=
      (∃ u : List Byte, u.length = 16 ∧ x.run (Mem.ofBufs [xs.map some, ds]) = .ok (whole 1 16) (Mem.ofBufs [xs.map some, u.map some]) ∧
        y.run (Mem.ofBufs [xs.map some, ds]) = .ok (whole 1 16) (Mem.ofBufs [xs.map some, u.map some])) ∨
      ∃ d1 d2 : List Cell, d1.length = 16 ∧ d2.length = 16 ∧ x.run (Mem.ofBufs [xs.map some, ds]) = .err (Mem.ofBufs [xs.map some, d1]) ∧
        y.run (Mem.ofBufs [xs.map some, ds]) = .err (Mem.ofBufs [xs.map some, d2])
    Same (parse si hi (whole 0 xs.length) ⟨1, 0⟩) (parse sj hj (whole 0 xs.length) ⟨1, 0⟩) ∧
    Same (parse_simple si (whole 0 xs.length) ⟨1, 0⟩) (parse_simple sj (whole 0 xs.length) ⟨1, 0⟩) ∧
    Same (parse_hyphenated hi (whole 0 xs.length) ⟨1, 0⟩) (parse_hyphenated hj (whole 0 xs.length) ⟨1, 0⟩) := by
  have hx : HasBytes (Mem.ofBufs [xs.map some, ds]) ⟨0, 0⟩ xs := hasBytes_ofBufs' rfl
  have hw := canWrite16 (a := xs.map some) hd
  exact ⟨same_outcome hd (parse_does si hhi hx hw (.inl (by simp))) (parse_does sj hhj hx hw (.inl (by simp))),
    same_outcome hd (parse_simple_does si hx hw (.inl (by simp))) (parse_simple_does sj hx hw (.inl (by simp))),
    same_outcome hd (parse_hyphenated_does hhi hx hw (.inl (by simp))) (parse_hyphenated_does hhj hx hw (.inl (by simp)))⟩

/-- C42: the formatters give the same result for every choice of instruction sets. -/
theorem C42_format (fi fj : Option Isa) {hi hj : Option Isa} (hhi : HypImpl hi) (hhj : HypImpl hj) (case : AsciiCase) (u : List Byte) (ds : List Cell) (hu : u.length = 16) :
    (ds.length = 32 → (format_simple fi ⟨0, 0⟩ ⟨1, 0⟩ case).run (Mem.ofBufs [u.map some, ds]) = (format_simple fj ⟨0, 0⟩ ⟨1, 0⟩ case).run (Mem.ofBufs [u.map some, ds]) ∧
      ((format_simple fi ⟨0, 0⟩ ⟨1, 0⟩ case).run (Mem.ofBufs [u.map some, ds])).Safe) ∧
    (ds.length = 36 → (format_hyphenated hi ⟨0, 0⟩ ⟨1, 0⟩ case).run (Mem.ofBufs [u.map some, ds]) =
        (format_hyphenated hj ⟨0, 0⟩ ⟨1, 0⟩ case).run (Mem.ofBufs [u.map some, ds]) ∧
      ((format_hyphenated hi ⟨0, 0⟩ ⟨1, 0⟩ case).run (Mem.ofBufs [u.map some, ds])).Safe) := by
  refine ⟨fun hd => ?_, fun hd => ?_⟩
  · rw [C40_format_simple fi case u ds hu hd, C40_format_simple fj case u ds hu hd]
    exact ⟨rfl, trivial⟩
  · rw [C40_format_hyphenated hhi case u ds hu hd, C40_format_hyphenated hhj case u ds hu hd]
    exact ⟨rfl, trivial⟩

/-! ### ext.rs -/

/-- `parse_uuid`: the value read by `assume_init` is always initialised. -/
theorem parse_uuid_out {spec : List Byte → Option (List Byte)} {f : Slice → Ptr → Prog Slice} {xs : List Byte}
    (h : ∀ ds : List Cell, ds.length = 16 → Does (f (whole 0 xs.length) ⟨1, 0⟩) ⟨⟨1, 0⟩, 16⟩ spec xs ⟨1, 0⟩ 16 (Mem.ofBufs [xs.map some, ds])) :
    match (parse_uuid (whole 0 xs.length) f).run (Mem.ofBufs [xs.map some]) with
    | .ok u m => spec xs = some u ∧ m = Mem.ofBufs [xs.map some, u.map some]
    | .err _ => spec xs = none
    | .panic => False
    | .ub => False := by
  have e : (parse_uuid (whole 0 xs.length) f).run (Mem.ofBufs [xs.map some]) =
      (do let _ ← f (whole 0 xs.length) ⟨1, 0⟩; loadBytes ⟨1, 0⟩ 16 : Prog (List Byte)).run (Mem.ofBufs [xs.map some, List.replicate 16 none]) := by
    show Prog.run _ ((Mem.ofBufs [xs.map some]).alloc 16) = _
    rw [ofBufs_alloc]; rfl
  have hd := h (List.replicate 16 none) rfl
  rw [e, run_bind]
  cases hs : spec xs with
  | none =>
    obtain ⟨ds', _, hr⟩ := (parser_out rfl hd).2 hs
    rw [hr]
  | some u =>
    have hl := (hd.copy_ok (by simp) hs).1
    rw [(parser_out rfl hd).1 u hs]
    have hb : HasBytes (Mem.ofBufs [xs.map some, u.map some]) ⟨1, 0⟩ u := hasBytes_ofBufs' rfl
    simp only [loadBytes, Prog.run, hb.read' hl, and_self]

/-- C50: `UuidExt::parse`, `parse_simple` and `parse_hyphenated` return `u` exactly on the forms of `u` they stand for, report an error otherwise, and never
assume an uninitialised byte to be initialised. -/
theorem C50_ext_parse (si : Option Isa) {hi : Option Isa} (hh : HypImpl hi) (xs : List Byte) :
    let Returns (x : Prog (List Byte)) (P : List Byte → Prop) : Prop := match x.run (Mem.ofBufs [xs.map some]) with
      | .ok u m => P u ∧ m = Mem.ofBufs [xs.map some, u.map some]
      | .err _ => ¬ ∃ u, P u
      | .panic => False
      | .ub => False
    Returns (ext_parse si hi (whole 0 xs.length)) (Spec.IsUuid xs) ∧
    Returns (ext_parse_simple si (whole 0 xs.length)) (Spec.IsUuidSimple xs) ∧
    Returns (ext_parse_hyphenated hi (whole 0 xs.length)) (Spec.IsUuidHyphenated xs) := by
  have key : ∀ {f : Slice → Ptr → Prog Slice} {spec : List Byte → Option (List Byte)} {P : List Byte → Prop}, (∀ u, spec xs = some u ↔ P u) →
      (∀ ds : List Cell, ds.length = 16 → Does (f (whole 0 xs.length) ⟨1, 0⟩) ⟨⟨1, 0⟩, 16⟩ spec xs ⟨1, 0⟩ 16 (Mem.ofBufs [xs.map some, ds])) →
      (match (parse_uuid (whole 0 xs.length) f).run (Mem.ofBufs [xs.map some]) with
      | .ok u m => P u ∧ m = Mem.ofBufs [xs.map some, u.map some]
      | .err _ => ¬ ∃ u, P u
      | .panic => False
      | .ub => False) := by
    intro f spec P hP hf
    have := parse_uuid_out hf
    split <;> rename_i ho <;> rw [ho] at this
    · exact ⟨(hP _).1 this.1, this.2⟩
    · rintro ⟨u, hu⟩
      rw [(hP u).2 hu] at this; cases this
    · exact this
    · exact this
  have hx : ∀ ds : List Cell, HasBytes (Mem.ofBufs [xs.map some, ds]) ⟨0, 0⟩ xs := fun ds => hasBytes_ofBufs' rfl
  exact ⟨key (parseS_iff xs) fun ds hd => parse_does si hh (hx ds) (canWrite16 hd) (.inl (by simp)),
    key (simpleS_iff xs) fun ds hd => parse_simple_does si (hx ds) (canWrite16 hd) (.inl (by simp)),
    key (hyphenatedS_iff xs) fun ds hd => parse_hyphenated_does hh (hx ds) (canWrite16 hd) (.inl (by simp))⟩

/-- C50: `LowerHex`, `UpperHex` and `Display` hand the formatter exactly the text of the value, all of it initialised and ASCII (so
`from_utf8_unchecked` is sound). -/
theorem C50_ext_format (fi : Option Isa) {hi : Option Isa} (hh : HypImpl hi) (case : AsciiCase) (u : List Byte) (hu : u.length = 16) :
    (∃ m, (fmt_simple fi ⟨0, 0⟩ case).run (Mem.ofBufs [u.map some]) = .ok (Spec.uuidSimple (case == .upper) u) m) ∧
    (∃ m, (fmt_hyphenated hi ⟨0, 0⟩ case).run (Mem.ofBufs [u.map some]) = .ok (Spec.uuidHyphenated (case == .upper) u) m) ∧
    (∀ c ∈ Spec.uuidSimple (case == .upper) u, c.toNat < 128) ∧ ∀ c ∈ Spec.uuidHyphenated (case == .upper) u, c.toNat < 128 := by
  have key : ∀ (N : Nat) (f : Ptr → Ptr → AsciiCase → Prog Slice) (t : List Byte), t.length = N →
      (∀ ds : List Cell, ds.length = N → (f ⟨0, 0⟩ ⟨1, 0⟩ case).run (Mem.ofBufs [u.map some, ds]) = .ok (whole 1 N) (Mem.ofBufs [u.map some, t.map some])) →
      ∃ m, (format_uuid N ⟨0, 0⟩ f case).run (Mem.ofBufs [u.map some]) = .ok t m := by
    intro N f t hN hf
    have e : (format_uuid N ⟨0, 0⟩ f case).run (Mem.ofBufs [u.map some]) =
        (do let ans ← f ⟨0, 0⟩ ⟨1, 0⟩ case; loadBytes ans.ptr ans.len : Prog (List Byte)).run (Mem.ofBufs [u.map some, List.replicate N none]) := by
      show Prog.run _ ((Mem.ofBufs [u.map some]).alloc N) = _
      rw [ofBufs_alloc]; rfl
    have hb : HasBytes (Mem.ofBufs [u.map some, t.map some]) ⟨1, 0⟩ t := hasBytes_ofBufs' rfl
    refine ⟨Mem.ofBufs [u.map some, t.map some], ?_⟩
    rw [e, run_bind, hf _ (by simp)]
    simp only [loadBytes, Prog.run, whole, hb.read' hN]
  have hhex : ∀ v : List Byte, ∀ c ∈ Spec.hexEncode (case == .upper) v, c.toNat < 128 := by
    have kd : ∀ b : Bool, ∀ n : Fin 16, (Spec.hexDigit b n.val).toNat < 128 := by decide
    intro v c hc
    unfold Spec.hexEncode at hc
    obtain ⟨x, _, hx⟩ := List.mem_flatMap.1 hc
    have h1 := kd (case == .upper) ⟨x.toNat / 16, by omega⟩
    have h2 := kd (case == .upper) ⟨x.toNat % 16, by omega⟩
    simp only [List.mem_cons, List.not_mem_nil, or_false] at hx
    rcases hx with rfl | rfl
    · exact h1
    · exact h2
  refine ⟨key 32 (format_simple fi) _ ?_ fun ds hd => C40_format_simple fi case u ds hu hd,
    key 36 (format_hyphenated hi) _ ?_ fun ds hd => C40_format_hyphenated hh case u ds hu hd, hhex u, ?_⟩
  · rw [Spec.uuidSimple, hexEncode_length]; omega
  · rw [uuidHyphenated_eq _ hu, hyph_length (by rw [hexEncode_length]; omega)]
  · intro c hc
    simp only [Spec.uuidHyphenated, List.mem_append, List.mem_singleton] at hc
    rcases hc with ((((((((hc | hc) | hc) | hc) | hc) | hc) | hc) | hc) | hc)
    · exact hhex _ c hc
    · rw [hc]; decide
    · exact hhex _ c hc
    · rw [hc]; decide
    · exact hhex _ c hc
    · rw [hc]; decide
    · exact hhex _ c hc
    · rw [hc]; decide
    · exact hhex _ c hc

example : sample.length = 16 := by decide

end Simd.Uuid
