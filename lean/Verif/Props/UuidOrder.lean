import Verif.Props.Order
import Verif.Props.Fmt
import Verif.Props.AnywhereExt
/-
C64 for UUIDs: the texts of UUIDs are in the order of the values.
-/
namespace Simd.Uuid

/-- Strings with first parts of the same length. -/
theorem before_append : ∀ {a b : List Byte} (c d : List Byte), a.length = b.length → (Spec.Before (a ++ c) (b ++ d) ↔ Spec.Before a b ∨ a = b ∧ Spec.Before c d)
  | [], [], c, d, _ => by simp [Spec.Before]
  | x :: a, y :: b, c, d, h => by
    have ih := before_append c d (Nat.succ.inj h : a.length = b.length)
    simp only [List.cons_append, Spec.Before, ih, List.cons.injEq]
    constructor
    · rintro (h | ⟨h1, h | ⟨h2, h⟩⟩)
      · exact .inl (.inl h)
      · exact .inl (.inr ⟨h1, h⟩)
      · exact .inr ⟨⟨h1, h2⟩, h⟩
    · rintro ((h | ⟨h1, h⟩) | ⟨⟨h1, h2⟩, h⟩)
      · exact .inl h
      · exact .inr ⟨h1, .inl h⟩
      · exact .inr ⟨h1, .inr ⟨h2, h⟩⟩

/-- One group of digits and a hyphen in front of the rest. -/
theorem before_group (upper : Bool) {a b c d : List Byte} {c' d' : List Byte} (h : a.length = b.length) (hr : Spec.Before c d ↔ Spec.Before c' d') :
    Spec.Before (Spec.hexEncode upper a ++ ([0x2d#8] ++ c)) (Spec.hexEncode upper b ++ ([0x2d#8] ++ d)) ↔ Spec.Before (a ++ c') (b ++ d') := by
  have hl : (Spec.hexEncode upper a).length = (Spec.hexEncode upper b).length := by rw [Hex.hexEncode_length, Hex.hexEncode_length, h]
  have hb := before_iff_of_mono (fun x y => Hex.hexEncode_before upper (a := x) (b := y))
  have he : Spec.hexEncode upper a = Spec.hexEncode upper b ↔ a = b := by
    refine ⟨fun e => ?_, fun e => by rw [e]⟩
    rcases before_total a b with h1 | h1 | h1
    · have := (hb a b).2 h1; rw [e] at this; exact absurd this (before_irrefl _)
    · exact h1
    · have := (hb b a).2 h1; rw [e] at this; exact absurd this (before_irrefl _)
  rw [before_append _ _ hl, before_append _ _ h, hb, he, before_append (a := [0x2d#8]) (b := [0x2d#8]) c d rfl, hr]
  simp [Spec.Before]

theorem hyphenated_before (upper : Bool) {u v : List Byte} (hu : u.length = 16) (hv : v.length = 16) :
    Spec.Before (Spec.uuidHyphenated upper u) (Spec.uuidHyphenated upper v) ↔ Spec.Before u v := by
  have split : ∀ w : List Byte, w.take 4 ++ ((w.drop 4).take 2 ++ ((w.drop 6).take 2 ++ ((w.drop 8).take 2 ++ w.drop 10))) = w := by
    intro w
    rw [← List.drop_drop (i := 2) (j := 8), List.take_append_drop, ← List.drop_drop (i := 2) (j := 6), List.take_append_drop, ← List.drop_drop (i := 2) (j := 4),
      List.take_append_drop, List.take_append_drop]
  conv_rhs => rw [← split u, ← split v]
  unfold Spec.uuidHyphenated
  simp only [List.append_assoc]
  refine before_group upper (by simp; omega) (before_group upper (by simp; omega) (before_group upper (by simp; omega) (before_group upper (by simp; omega) ?_)))
  exact before_iff_of_mono (fun x y => Hex.hexEncode_before upper (a := x) (b := y)) _ _

/-- C64, UUIDs: of two texts in the same form and case, printed by any implementations from values anywhere, one comes before the other exactly if the values do. -/
theorem C64_format (fi fj : Option Isa) {hi hj : Option Isa} (hh : HypImpl hi) (hh' : HypImpl hj) (case : AsciiCase) {u v : List Byte} (hu : u.length = 16) (hv : v.length = 16)
    {m n : Mem} {p q : Ptr} (hp : p.buf < m.nbuf) (hq : q.buf < n.nbuf) (hru : Spec.Reads m p u) (hrv : Spec.Reads n q v)
    {s t s' t' : List Byte} {m1 m2 m3 m4 : Mem} (h1 : (fmt_simple fi p case).run m = .ok s m1) (h2 : (fmt_simple fj q case).run n = .ok t m2)
    (h3 : (fmt_hyphenated hi p case).run m = .ok s' m3) (h4 : (fmt_hyphenated hj q case).run n = .ok t' m4) :
    (Spec.Before s t ↔ Spec.Before u v) ∧ (Spec.Before s' t' ↔ Spec.Before u v) := by
  obtain ⟨⟨_, e1, -⟩, _, e3, -⟩ := C50_ext_format_any fi hh case m p u hu hp hru
  obtain ⟨⟨_, e2, -⟩, _, e4, -⟩ := C50_ext_format_any fj hh' case n q v hv hq hrv
  rw [e1] at h1; rw [e2] at h2; rw [e3] at h3; rw [e4] at h4
  cases h1; cases h2; cases h3; cases h4
  exact ⟨before_iff_of_mono (fun x y => Hex.hexEncode_before _ (a := x) (b := y)) u v, hyphenated_before _ hu hv⟩

/-- The runs exist (C50), for instance of the values 0…0 and 0…01. -/
example : ∃ s t m1 m2, (fmt_hyphenated (some .avx2) ⟨0, 0⟩ .lower).run (Mem.ofBufs [(List.replicate 16 (0#8)).map some]) = .ok s m1 ∧
    (fmt_hyphenated none ⟨0, 0⟩ .lower).run (Mem.ofBufs [(List.replicate 15 (0#8) ++ [1#8]).map some]) = .ok t m2 ∧ Spec.Before s t := by
  obtain ⟨-, ⟨m1, h1⟩, -⟩ := C50_ext_format none (hi := some .avx2) (by unfold HypImpl; decide) .lower (List.replicate 16 (0#8)) rfl
  obtain ⟨-, ⟨m2, h2⟩, -⟩ := C50_ext_format none (hi := none) (by unfold HypImpl; decide) .lower (List.replicate 15 (0#8) ++ [1#8]) rfl
  refine ⟨_, _, m1, m2, h1, h2, (hyphenated_before _ rfl rfl).2 ?_⟩
  simp [Spec.Before, List.replicate]

end Simd.Uuid
