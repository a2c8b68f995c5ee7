import Verif.Lemmas.Fmt
import Verif.Props.Uuid
/-
C80: formatting of UUIDs and errors with any options into any sink.
-/
namespace Simd
open Fmt

/-- C80: the options and the text determine what is written. -/
theorem C80_padded_unique {o : Options} {t a b : List Char} (ha : Spec.Padded o t a) (hb : Spec.Padded o t b) : a = b := by
  obtain ⟨s, p, q, rfl, h1, h2, h3, h4, h5, h6, h7, h8⟩ := ha
  obtain ⟨s', p', q', rfl, k1, k2, k3, k4, k5, k6, k7, k8⟩ := hb
  have hs : s = s' := by
    cases ho : o.precision with
    | none => rw [h3 ho, k3 ho]
    | some n =>
      have e : s.length = s'.length := by rw [h2 n ho, k2 n ho]
      rw [List.prefix_iff_eq_take.1 h1, List.prefix_iff_eq_take.1 k1, e]
  subst hs
  have hp : p = p' ∧ q = q' := by
    cases hw : o.width with
    | none => have := h4 hw; have := k4 hw; omega
    | some w =>
      have e1 := h5 w hw
      have e2 := k5 w hw
      simp only [List.length_append, List.length_replicate] at e1 e2
      rcases hal : o.align with _ | _ | _ | _
      · have := h6 (.inl hal); have := k6 (.inl hal); omega
      · have := h6 (.inr hal); have := k6 (.inr hal); omega
      · have := h7 hal; have := k7 hal; omega
      · have := h8 hal; have := k8 hal; omega
  rw [hp.1, hp.2]

/-- C80: without width and precision the text itself is written. -/
theorem C80_padded_plain {o : Options} (hw : o.width = none) (hp : o.precision = none) (t : List Char) (out : List Char) : Spec.Padded o t out ↔ out = t := by
  have h : Spec.Padded o t t := ⟨t, 0, 0, by simp, List.prefix_refl _, fun p h => (by rw [hp] at h; cases h), fun _ => rfl, fun _ => ⟨rfl, rfl⟩, fun w h => (by rw [hw] at h; cases h),
    fun _ => rfl, fun _ => rfl, fun _ => ⟨Nat.le_refl _, Nat.le_succ _⟩⟩
  exact ⟨fun h' => C80_padded_unique h' h, fun e => e ▸ h⟩

/-- C80: `{}` and `{:?}` of the four error types, with any options into any sink. -/
theorem C80_error (c : Crate) (o : Options) (k : Sink) :
    let name : Crate → String | .base64 => "Base64Error" | .base32 => "Base32Error" | .hex => "HexError" | .uuid => "UUIDError"
    (∃ out, Spec.Padded o (name c).toList out ∧ Spec.Written out k (error_display c o k)) ∧ Spec.Written ("\"" ++ name c ++ "\"").toList k (error_debug c k) := by
  intro name
  have hd : error_display c o k = pad o (name c).toList k := by cases c <;> rfl
  have hg : error_debug c k = str_debug (name c).toList k := by cases c <;> rfl
  obtain ⟨out, hp, he⟩ := emits_pad o (name c).toList
  refine ⟨⟨out, hp, by rw [hd]; exact he.written k⟩, ?_⟩
  have := ((emits_str ['"']).seq ((emits_str (name c).toList).seq (emits_str ['"']))).written k
  rw [hg]
  simpa [String.toList_append, str_debug] using this

namespace Uuid

/-- What the call shows of the text with the bytes `bs`: the text is written with the options into the sink. -/
def Shows (x : Options → Sink → Prog (Sink × Bool)) (u bs : List Byte) : Prop :=
  ∀ o k, ∃ t out r m, (x o k).run (Mem.ofBufs [u.map some]) = .ok r m ∧ Spec.IsText t bs ∧ Spec.Padded o t out ∧ Spec.Written out k r

theorem shows_of {x : Options → Sink → Prog (Sink × Bool)} {y : Prog (List Byte)} {u bs : List Byte} (hx : ∀ o k, x o k = y >>= fun s => pure (pad o (chars s) k))
    (hy : ∃ m, y.run (Mem.ofBufs [u.map some]) = .ok bs m) (hb : ∀ c ∈ bs, c.toNat < 128) : Shows x u bs := by
  intro o k
  obtain ⟨m, hm⟩ := hy
  obtain ⟨out, p, e⟩ := emits_pad o (chars bs)
  exact ⟨chars bs, out, _, m, by rw [hx, run_bind, hm]; rfl, isText_chars hb, p, e.written k⟩

/-- C80: `{:x}`, `{:X}` and `{}` of both adapters, with any fill, alignment, width and precision, into any sink: the text of the value in lower case (upper case for `{:X}`) is written with
these options, or an error is reported if the sink is too small. -/
theorem C80_format (fi : Option Isa) {hi : Option Isa} (hh : HypImpl hi) (u : List Byte) (hu : u.length = 16) :
    (∀ case, Shows (simple_hex fi ⟨0, 0⟩ case) u (Spec.uuidSimple (case == .upper) u)) ∧
    (∀ case, Shows (hyphenated_hex hi ⟨0, 0⟩ case) u (Spec.uuidHyphenated (case == .upper) u)) ∧
    Shows (simple_display fi ⟨0, 0⟩) u (Spec.uuidSimple false u) ∧ Shows (hyphenated_display hi ⟨0, 0⟩) u (Spec.uuidHyphenated false u) := by
  have h := fun case => C50_ext_format fi hh case u hu
  exact ⟨fun case => shows_of (fun _ _ => rfl) (h case).1 (h case).2.2.1, fun case => shows_of (fun _ _ => rfl) (h case).2.1 (h case).2.2.2,
    shows_of (fun _ _ => rfl) (h .lower).1 (h .lower).2.2.1, shows_of (fun _ _ => rfl) (h .lower).2.1 (h .lower).2.2.2⟩

theorem Shows.to_string {x : Options → Sink → Prog (Sink × Bool)} {u bs : List Byte} (h : Shows x u bs) :
    ∃ t m, (to_string x).run (Mem.ofBufs [u.map some]) = .ok t m ∧ Spec.IsText t bs := by
  obtain ⟨t, out, ⟨k, ok⟩, m, hr, ht, hp, hw⟩ := h {} ⟨[], none⟩
  obtain ⟨h1, h2⟩ := hw.1 (fun r hr => nomatch hr)
  rw [(C80_padded_plain rfl rfl t out).1 hp] at h2
  dsimp only at h1 h2
  subst h1
  refine ⟨t, m, ?_, ht⟩
  unfold Fmt.to_string
  rw [run_bind, hr]
  have e : k.out = t := h2
  rw [← e]; rfl

/-- The parser returns `u` on the bytes of the ASCII text `t`. -/
def Reads (p : Slice → Prog (List Byte)) (u : List Byte) (t : List Char) : Prop :=
  ∃ m, (p (whole 0 t.length)).run (Mem.ofBufs [(t.map fun c => BitVec.ofNat 8 c.toNat).map some]) = .ok u m

/-- A parser that returns exactly the value the text stands for returns `u` on a text of `u`. -/
theorem reads_of {p : Slice → Prog (List Byte)} {P : List Byte → Prop} {xs u : List Byte} {t : List Char} (ht : Spec.IsText t xs) (hun : ∀ v, P v → v = u) (hP : P u)
    (h : ∀ r, (p (whole 0 xs.length)).run (Mem.ofBufs [xs.map some]) = r → (∃ v m, r = .ok v m ∧ P v) ∨ ¬ ∃ v, P v) : Reads p u t := by
  have hl : t.length = xs.length := by rw [← ht.2, List.length_map]
  unfold Reads
  rw [ht.2, hl]
  obtain ⟨v, m, hr, hv⟩ | hn := h _ rfl
  · rw [hr, hun v hv]; exact ⟨_, rfl⟩
  · exact absurd ⟨u, hP⟩ hn

/-- C80: a UUID survives `to_string` and `Uuid::parse`, whatever instruction sets the two sides use: in either form, and also with the parser for that form only. -/
theorem C80_round_trip (fi si : Option Isa) {hi hj : Option Isa} (hh : HypImpl hi) (hj' : HypImpl hj) (u : List Byte) (hu : u.length = 16) :
    (∃ t m, (to_string (simple_display fi ⟨0, 0⟩)).run (Mem.ofBufs [u.map some]) = .ok t m ∧ t.length = 32 ∧ Reads (ext_parse si hj) u t ∧ Reads (ext_parse_simple si) u t) ∧
    (∃ t m, (to_string (hyphenated_display hi ⟨0, 0⟩)).run (Mem.ofBufs [u.map some]) = .ok t m ∧ t.length = 36 ∧ Reads (ext_parse si hj) u t ∧ Reads (ext_parse_hyphenated hj) u t) := by
  obtain ⟨-, -, h1, h2⟩ := C80_format fi hh u hu
  have hs : Spec.IsUuidSimple (Spec.uuidSimple false u) u := ⟨hu, lower_simple false u⟩
  have hy : Spec.IsUuidHyphenated (Spec.uuidHyphenated false u) u := ⟨hu, lower_hyphenated false u⟩
  obtain ⟨t1, m1, r1, e1⟩ := h1.to_string
  obtain ⟨t2, m2, r2, e2⟩ := h2.to_string
  have a := C50_ext_parse si hj' (Spec.uuidSimple false u)
  have b := C50_ext_parse si hj' (Spec.uuidHyphenated false u)
  have q1 : ∀ v, Spec.IsUuid (Spec.uuidSimple false u) v → v = u := fun v hv => Option.some.inj (((parseS_iff _ v).2 hv).symm.trans ((parseS_iff _ u).2 (.inl hs)))
  have q2 : ∀ v, Spec.IsUuidSimple (Spec.uuidSimple false u) v → v = u := fun v hv => Option.some.inj (((simpleS_iff _ v).2 hv).symm.trans ((simpleS_iff _ u).2 hs))
  have q3 : ∀ v, Spec.IsUuid (Spec.uuidHyphenated false u) v → v = u := fun v hv => Option.some.inj (((parseS_iff _ v).2 hv).symm.trans ((parseS_iff _ u).2 (.inr (.inl hy))))
  have q4 : ∀ v, Spec.IsUuidHyphenated (Spec.uuidHyphenated false u) v → v = u := fun v hv => Option.some.inj (((hyphenatedS_iff _ v).2 hv).symm.trans ((hyphenatedS_iff _ u).2 hy))
  have g1 := reads_of (p := ext_parse si hj) e1 q1 (.inl hs) fun r hr => by
    have h := a.1
    dsimp only at h
    rw [hr] at h
    cases r with
    | ok v m => exact .inl ⟨v, m, rfl, h.1⟩
    | err m => exact .inr h
    | panic => exact h.elim
    | ub => exact h.elim
  have g2 := reads_of (p := ext_parse_simple si) e1 q2 hs fun r hr => by
    have h := a.2.1
    dsimp only at h
    rw [hr] at h
    cases r with
    | ok v m => exact .inl ⟨v, m, rfl, h.1⟩
    | err m => exact .inr h
    | panic => exact h.elim
    | ub => exact h.elim
  have g3 := reads_of (p := ext_parse si hj) e2 q3 (.inr (.inl hy)) fun r hr => by
    have h := b.1
    dsimp only at h
    rw [hr] at h
    cases r with
    | ok v m => exact .inl ⟨v, m, rfl, h.1⟩
    | err m => exact .inr h
    | panic => exact h.elim
    | ub => exact h.elim
  have g4 := reads_of (p := ext_parse_hyphenated hj) e2 q4 hy fun r hr => by
    have h := b.2.2
    dsimp only at h
    rw [hr] at h
    cases r with
    | ok v m => exact .inl ⟨v, m, rfl, h.1⟩
    | err m => exact .inr h
    | panic => exact h.elim
    | ub => exact h.elim
  refine ⟨⟨t1, m1, r1, ?_, g1, g2⟩, t2, m2, r2, ?_, g3, g4⟩
  · rw [← isSimple_length hs, ← e1.2, List.length_map]
  · rw [← isHyphenated_length hy, ← e2.2, List.length_map]

end Uuid

/-! Non-vacuity. -/

/-- `{:*^40}` of a text of 36 characters has two stars on either side; `{:>5}` of a longer text is the text; `{:*^8.3}` cuts first. -/
example : (pad { fill := '*', align := some .center, width := some 8, precision := some 3 } "HexError".toList ⟨[], none⟩).1.out = "**Hex***".toList := by decide
example : pad { width := some 10 } "HexError".toList ⟨[], some 9⟩ = (⟨"HexError ".toList, some 0⟩, false) := rfl
example : (error_debug .uuid ⟨[], none⟩).1.out = "\"UUIDError\"".toList := by decide
example : ¬ Spec.HasRoom ⟨[], some 9⟩ 10 := fun h => absurd (h 9 rfl) (by decide)
example : (Uuid.sample).length = 16 ∧ Uuid.HypImpl none ∧ Uuid.HypImpl (some .avx2) := by
  refine ⟨by decide, ?_, ?_⟩ <;> unfold Uuid.HypImpl <;> decide

end Simd
