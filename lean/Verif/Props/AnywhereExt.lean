import Verif.Props.AnywhereText
import Verif.Lemmas.RawHeap
/-
C50 in any memory: the functions of `UuidExt` and the formatters of uuid-simd's `ext.rs` on a text or a value anywhere. The local
`MaybeUninit` array is a new allocation; every allocation that existed before the call is as it was.
-/
namespace Simd.Uuid

/-- From the outcome of a parser, for every destination, to that of `parse_uuid`. -/
theorem parse_uuid_any {f : Slice → Ptr → Prog Slice} {P : List Byte → Prop} {m : Mem} {p : Ptr} {xs : List Byte} (hp : p.buf < m.nbuf) (hr : Spec.Reads m p xs)
    (hP : ∀ u, P u → u.length = 16)
    (hf : ∀ m q, Spec.Reads m p xs → Spec.Writable m q 16 → Spec.NoOverlap p xs.length q 16 →
      (∀ u, P u → ∃ m', (f ⟨p, xs.length⟩ q).run m = .ok ⟨q, 16⟩ m' ∧ Spec.Wrote m m' q u) ∧
      ((¬ ∃ u, P u) → ∃ m', (f ⟨p, xs.length⟩ q).run m = .err m' ∧ Spec.OnlyChanged m m' q 16)) :
    (∀ u, P u → ∃ m', (parse_uuid ⟨p, xs.length⟩ f).run m = .ok u m' ∧ Spec.Kept m m') ∧
    ((¬ ∃ u, P u) → ∃ m', (parse_uuid ⟨p, xs.length⟩ f).run m = .err m' ∧ Spec.Kept m m') := by
  have hk := kept_alloc m 16
  have hsz : (m.alloc 16).size m.nbuf = 16 := by simp [Mem.alloc]
  have hr' : Spec.Reads (m.alloc 16) p xs := ⟨by rw [(hk.2 _ hp).1]; exact hr.1, fun i h => by rw [(hk.2 _ hp).2]; exact hr.2 i h⟩
  obtain ⟨h1, h2⟩ := hf (m.alloc 16) ⟨m.nbuf, 0⟩ hr' (by unfold Spec.Writable; simp only [hsz]; omega) (fun i j _ _ h => by have := h.1; simp only at this; omega)
  have e : (parse_uuid ⟨p, xs.length⟩ f).run m = (do let _ ← f ⟨p, xs.length⟩ ⟨m.nbuf, 0⟩; loadBytes ⟨m.nbuf, 0⟩ 16 : Prog (List Byte)).run (m.alloc 16) := rfl
  refine ⟨fun u hu => ?_, fun hn => ?_⟩
  · obtain ⟨m', hm, hw⟩ := h1 u hu
    have hb : HasBytes m' ⟨m.nbuf, 0⟩ u := ⟨by rw [hw.2.1, hsz, hP u hu], hw.2.2.1⟩
    refine ⟨m', ?_, ?_⟩
    · rw [e, run_bind, hm]
      simp only [loadBytes, Prog.run, hb.read' (hP u hu)]
    · refine ⟨by rw [hw.1]; exact hk.1, fun b h => ⟨by rw [hw.2.1]; exact (hk.2 b h).1, fun o => ?_⟩⟩
      rw [hw.2.2.2 b o (fun i _ h' => by have := h'.1; simp only at this; omega)]; exact (hk.2 b h).2 o
  · obtain ⟨m', hm, hw⟩ := h2 hn
    refine ⟨m', by rw [e, run_bind, hm], by rw [hw.1]; exact hk.1, fun b h => ⟨by rw [hw.2.1]; exact (hk.2 b h).1, fun o => ?_⟩⟩
    rw [hw.2.2.2 b o (fun i _ h' => by have := h'.1; simp only at this; omega)]; exact (hk.2 b h).2 o

theorem isUuid_value_length {xs u : List Byte} (h : Spec.IsUuid xs u) : u.length = 16 := by
  rcases h with h | h | ⟨_, _, h⟩ | ⟨_, _, h⟩ <;> exact h.1

/-- C50, anywhere: `UuidExt::parse`. -/
theorem C50_ext_parse_any (si : Option Isa) {hi : Option Isa} (hh : HypImpl hi) (m : Mem) (p : Ptr) (xs : List Byte) (hp : p.buf < m.nbuf) (hr : Spec.Reads m p xs) :
    (∀ u, Spec.IsUuid xs u → ∃ m', (ext_parse si hi ⟨p, xs.length⟩).run m = .ok u m' ∧ Spec.Kept m m') ∧
    ((¬ ∃ u, Spec.IsUuid xs u) → ∃ m', (ext_parse si hi ⟨p, xs.length⟩).run m = .err m' ∧ Spec.Kept m m') :=
  parse_uuid_any hp hr (fun _ => isUuid_value_length) fun m q => C60_parse si hh m p q xs

/-- C50, anywhere: `UuidExt::parse_simple`. -/
theorem C50_ext_parse_simple_any (i : Option Isa) (m : Mem) (p : Ptr) (xs : List Byte) (hp : p.buf < m.nbuf) (hr : Spec.Reads m p xs) :
    (∀ u, Spec.IsUuidSimple xs u → ∃ m', (ext_parse_simple i ⟨p, xs.length⟩).run m = .ok u m' ∧ Spec.Kept m m') ∧
    ((¬ ∃ u, Spec.IsUuidSimple xs u) → ∃ m', (ext_parse_simple i ⟨p, xs.length⟩).run m = .err m' ∧ Spec.Kept m m') :=
  parse_uuid_any hp hr (fun _ h => h.1) fun m q => C60_parse_simple i m p q xs

/-- C50, anywhere: `UuidExt::parse_hyphenated`. -/
theorem C50_ext_parse_hyphenated_any {i : Option Isa} (hi : HypImpl i) (m : Mem) (p : Ptr) (xs : List Byte) (hp : p.buf < m.nbuf) (hr : Spec.Reads m p xs) :
    (∀ u, Spec.IsUuidHyphenated xs u → ∃ m', (ext_parse_hyphenated i ⟨p, xs.length⟩).run m = .ok u m' ∧ Spec.Kept m m') ∧
    ((¬ ∃ u, Spec.IsUuidHyphenated xs u) → ∃ m', (ext_parse_hyphenated i ⟨p, xs.length⟩).run m = .err m' ∧ Spec.Kept m m') :=
  parse_uuid_any hp hr (fun _ h => h.1) fun m q => C60_parse_hyphenated hi m p q xs

/-- From the outcome of a formatting function, for every destination, to that of `format_uuid`. -/
theorem format_uuid_any {f : Ptr → Ptr → AsciiCase → Prog Slice} {case : AsciiCase} {m : Mem} {p : Ptr} {u t : List Byte} {N : Nat} (hp : p.buf < m.nbuf)
    (hr : Spec.Reads m p u) (ht : t.length = N)
    (hf : ∀ m q, Spec.Reads m p u → Spec.Writable m q N → Spec.NoOverlap p 16 q N → ∃ m', (f p q case).run m = .ok ⟨q, N⟩ m' ∧ Spec.Wrote m m' q t) :
    ∃ m', (format_uuid N p f case).run m = .ok t m' ∧ Spec.Kept m m' := by
  have hk := kept_alloc m N
  have hsz : (m.alloc N).size m.nbuf = N := by simp [Mem.alloc]
  have hr' : Spec.Reads (m.alloc N) p u := ⟨by rw [(hk.2 _ hp).1]; exact hr.1, fun i h => by rw [(hk.2 _ hp).2]; exact hr.2 i h⟩
  obtain ⟨m', hm, hw⟩ := hf (m.alloc N) ⟨m.nbuf, 0⟩ hr' (by unfold Spec.Writable; simp only [hsz]; omega) (fun i j _ _ h => by have := h.1; simp only at this; omega)
  have hb : HasBytes m' ⟨m.nbuf, 0⟩ t := ⟨by rw [hw.2.1, hsz, ht]; simp, hw.2.2.1⟩
  have e : (format_uuid N p f case).run m = (do let ans ← f p ⟨m.nbuf, 0⟩ case; loadBytes ans.ptr ans.len : Prog (List Byte)).run (m.alloc N) := rfl
  refine ⟨m', ?_, ?_⟩
  · rw [e, run_bind, hm]
    simp only [loadBytes, Prog.run, hb.read' ht]
  · refine ⟨by rw [hw.1]; exact hk.1, fun b h => ⟨by rw [hw.2.1]; exact (hk.2 b h).1, fun o => ?_⟩⟩
    rw [hw.2.2.2 b o (fun i _ h' => by have := h'.1; simp only at this; omega)]; exact (hk.2 b h).2 o

/-- C50, anywhere: the formatters of `Simple` and `Hyphenated`. -/
theorem C50_ext_format_any (fi : Option Isa) {hi : Option Isa} (hh : HypImpl hi) (case : AsciiCase) (m : Mem) (p : Ptr) (u : List Byte) (hu : u.length = 16)
    (hp : p.buf < m.nbuf) (hr : Spec.Reads m p u) :
    (∃ m', (fmt_simple fi p case).run m = .ok (Spec.uuidSimple (case == .upper) u) m' ∧ Spec.Kept m m') ∧
    ∃ m', (fmt_hyphenated hi p case).run m = .ok (Spec.uuidHyphenated (case == .upper) u) m' ∧ Spec.Kept m m' :=
  ⟨format_uuid_any hp hr (by rw [Spec.uuidSimple, Hex.hexEncode_length]; omega) fun m q => C60_format_simple fi case m p q u hu,
    format_uuid_any hp hr (by rw [uuidHyphenated_eq _ hu, hyph_length (by rw [Hex.hexEncode_length]; omega)]) fun m q => C60_format_hyphenated hh case m p q u hu⟩

/-- A value at offset 3 of an allocation of 20 bytes, the cells around it uninitialised. -/
example : let m := Mem.ofBufs [[], [none, none, none] ++ (List.replicate 16 (7#8)).map some ++ [none]]
    Spec.Reads m ⟨1, 3⟩ (List.replicate 16 7#8) ∧ 1 < m.nbuf := by
  refine ⟨⟨by decide, ?_⟩, by decide⟩
  decide

/-- A text with a form, at offset 2, and one without. -/
example : let m := Mem.ofBufs [[none, none] ++ (List.replicate 32 (0x41#8)).map some]
    (Spec.Reads m ⟨0, 2⟩ (List.replicate 32 0x41#8) ∧ Spec.IsUuid (List.replicate 32 0x41#8) (List.replicate 16 0xaa#8)) ∧
    Spec.Reads m ⟨0, 2⟩ (List.replicate 5 0x41#8) := by
  refine ⟨⟨⟨by decide, by decide⟩, .inl ⟨by decide, by decide⟩⟩, by decide, by decide⟩

end Simd.Uuid
