import Verif.Lemmas.UuidSpec
import Verif.Lemmas.Api
/-
The public UUID functions.
-/
namespace Simd.Uuid
open Vs Hex

variable {α : Type}

theorem Does.respec {x : Prog α} {r : α} {spec spec' : List Byte → Option (List Byte)} {xs xs' : List Byte} {q n m} (h : Does x r spec xs q n m)
    (he : spec' xs' = spec xs) : Does x r spec' xs' q n m := by
  unfold Does Post Fail at *
  rw [he]; exact h

theorem Does.reject {r : α} {spec : List Byte → Option (List Byte)} {xs : List Byte} {q n m} (h : spec xs = none) : Does (.err : Prog α) r spec xs q n m :=
  ⟨h, SameOutside.refl⟩

/-- What `parse` computes. -/
def parseS (xs : List Byte) : Option (List Byte) :=
  if xs.length = 32 then hexDec xs
  else if xs.length = 36 then hypDec xs
  else if xs.length = 38 then (if xs.getD 0 0 = 0x7b#8 ∧ xs.getD 37 0 = 0x7d#8 then hypDec ((xs.drop 1).take 36) else none)
  else if xs.length = 45 then (if xs.take 9 = URN then hypDec (xs.drop 9) else none)
  else none

def simpleS (xs : List Byte) : Option (List Byte) := if xs.length = 32 then hexDec xs else none
def hyphenatedS (xs : List Byte) : Option (List Byte) := if xs.length = 36 then hypDec xs else none

theorem parse_simple_does (i : Option Isa) {m p q} {xs : List Byte} (hx : HasBytes m p xs) (hw : CanWrite m q 16) (hd : Apart p q xs.length 16) :
    Does (parse_simple i ⟨p, xs.length⟩ q) ⟨q, 16⟩ simpleS xs q 16 m := by
  unfold parse_simple
  by_cases hl : xs.length = 32
  · refine Does.ensure (by simpa using hl) ?_
    exact Does.respec (parse_simple_auto_spec i hx hl hw hd).ret (by rw [simpleS, if_pos hl])
  · have : (xs.length == 32) = false := by simpa using hl
    rw [this]
    exact Does.reject (by rw [simpleS, if_neg hl])

theorem parse_hyphenated_does {i : Option Isa} (hi : HypImpl i) {m p q} {xs : List Byte} (hx : HasBytes m p xs) (hw : CanWrite m q 16) (hd : Apart p q xs.length 16) :
    Does (parse_hyphenated i ⟨p, xs.length⟩ q) ⟨q, 16⟩ hyphenatedS xs q 16 m := by
  unfold parse_hyphenated
  by_cases hl : xs.length = 36
  · refine Does.ensure (by simpa using hl) ?_
    exact Does.respec (parse_hyphenated_auto_spec hi hx hl hw hd).ret (by rw [hyphenatedS, if_pos hl])
  · have : (xs.length == 36) = false := by simpa using hl
    rw [this]
    exact Does.reject (by rw [hyphenatedS, if_neg hl])

theorem start_other {p : Ptr} {n : Nat} (h1 : n ≠ 36) (h2 : n ≠ 38) (h3 : n ≠ 45) : hyphenated_start ⟨p, n⟩ = .err := by
  unfold hyphenated_start
  split
  · exact (h1 (by assumption)).elim
  · exact (h2 (by assumption)).elim
  · exact (h3 (by assumption)).elim
  · rfl

theorem parse_does (si : Option Isa) {hi : Option Isa} (hh : HypImpl hi) {m p q} {xs : List Byte} (hx : HasBytes m p xs) (hw : CanWrite m q 16) (hd : Apart p q xs.length 16) :
    Does (parse si hi ⟨p, xs.length⟩ q) ⟨q, 16⟩ parseS xs q 16 m := by
  have hb := hx.bound
  unfold parse parseS
  by_cases h32 : xs.length = 32
  · simp only [if_pos h32]
    exact Does.respec (parse_simple_auto_spec si hx h32 hw hd).ret (by simp only [if_pos h32])
  simp only [if_neg h32]
  by_cases h36 : xs.length = 36
  · have e : hyphenated_start ⟨p, xs.length⟩ = pure p := by rw [h36]; rfl
    rw [e]
    exact Does.respec (parse_hyphenated_auto_spec hh hx h36 hw hd).ret (by simp only [if_neg h32, if_pos h36])
  by_cases h38 : xs.length = 38
  · have e : hyphenated_start ⟨p, xs.length⟩ = (do
        let a ← rd p 0
        ensure (a == 0x7b)
        let b ← rd p 37
        ensure (b == 0x7d)
        padd p 1
        pure (p.add 1)) := by rw [h38]; rfl
    have hsub := Does.ret (f := fun _ => (⟨q, 16⟩ : Slice)) (parse_hyphenated_auto_spec hh ((hx.drop 1 (by omega)).take 36) (by rw [List.length_take, List.length_drop]; omega) hw
      (by have := hd.sub (c := 1) (d := 0) (a' := 36) (b' := 16) (by omega) (by omega); rw [Ptr.add_zero] at this; exact this.mono (by rw [List.length_take]; omega) (Nat.le_refl _)))
    have g0 : xs[0] = xs.getD 0 0 := List.getElem_eq_getD _
    have g37 : xs[37] = xs.getD 37 0 := List.getElem_eq_getD _
    rw [e]
    unfold Does at hsub ⊢
    simp only [wp_bind, wp_rd_iff hx (show 0 < xs.length by omega), wp_rd_iff hx (show 37 < xs.length by omega), wp_ensure, wp_padd, wp_pure] at hsub ⊢
    rw [g0, g37]
    by_cases c1 : xs.getD 0 0 = 0x7b#8
    · rw [if_pos (by rw [c1]; rfl)]
      by_cases c2 : xs.getD 37 0 = 0x7d#8
      · rw [if_pos (by rw [c2]; rfl)]
        refine ⟨by omega, wp_mono hsub ?_ ?_⟩
        · rintro a m' ⟨ha, ys, hy, hyl, rfl⟩
          exact ⟨ha, ys, by simp only [if_neg h32, if_neg h36, if_pos h38, if_pos (And.intro c1 c2)]; exact hy, hyl, rfl⟩
        · rintro m' ⟨hn, hs⟩
          exact ⟨by simp only [if_neg h32, if_neg h36, if_pos h38, if_pos (And.intro c1 c2)]; exact hn, hs⟩
      · rw [if_neg (by intro h; exact c2 (by simpa using h))]
        exact ⟨by simp only [if_neg h32, if_neg h36, if_pos h38, if_neg (fun h => c2 (And.right h))], SameOutside.refl⟩
    · rw [if_neg (by intro h; exact c1 (by simpa using h))]
      exact ⟨by simp only [if_neg h32, if_neg h36, if_pos h38, if_neg (fun h => c1 (And.left h))], SameOutside.refl⟩
  by_cases h45 : xs.length = 45
  · have e : hyphenated_start ⟨p, xs.length⟩ = (do
        let head ← loadBytes p 9
        ensure (head == URN)
        pure (p.add 9)) := by rw [h45]; rfl
    have hsub := Does.ret (f := fun _ => (⟨q, 16⟩ : Slice)) (parse_hyphenated_auto_spec hh (hx.drop 9 (by omega)) (by rw [List.length_drop]; omega) hw
      (by have := hd.sub (c := 9) (d := 0) (a' := 36) (b' := 16) (by omega) (by omega); rw [Ptr.add_zero] at this; exact this.mono (by rw [List.length_drop]; omega) (Nat.le_refl _)))
    rw [e]
    unfold Does at hsub ⊢
    simp only [wp_bind, wp_loadBytes_iff (hx.take 9) (show (xs.take 9).length = 9 by rw [List.length_take]; omega), wp_ensure, wp_pure] at hsub ⊢
    by_cases c1 : xs.take 9 = URN
    · rw [if_pos (by rw [c1]; rfl)]
      refine wp_mono hsub ?_ ?_
      · rintro a m' ⟨ha, ys, hy, hyl, rfl⟩
        exact ⟨ha, ys, by simp only [if_neg h32, if_neg h36, if_neg h38, if_pos h45, if_pos c1]; exact hy, hyl, rfl⟩
      · rintro m' ⟨hn, hs⟩
        exact ⟨by simp only [if_neg h32, if_neg h36, if_neg h38, if_pos h45, if_pos c1]; exact hn, hs⟩
    · rw [if_neg (by intro h; exact c1 (by simpa using h))]
      exact ⟨by simp only [if_neg h32, if_neg h36, if_neg h38, if_pos h45, if_neg c1], SameOutside.refl⟩
  · rw [start_other h36 h38 h45]
    exact Does.reject (by simp only [if_neg h32, if_neg h36, if_neg h38, if_neg h45])

theorem format_simple_does (i : Option Isa) (case : AsciiCase) {m p q} {xs : List Byte} (hx : HasBytes m p xs) (hl : xs.length = 16) (hw : CanWrite m q 32) (hd : Apart p q xs.length 32) :
    Does (format_simple i p q case) ⟨q, 32⟩ (encS case) xs q 32 m :=
  (format_simple_auto_spec i case hx hl hw hd).ret

theorem format_hyphenated_does {i : Option Isa} (hi : HypImpl i) (case : AsciiCase) {m p q} {xs : List Byte} (hx : HasBytes m p xs) (hl : xs.length = 16)
    (hw : CanWrite m q 36) (hd : Apart p q xs.length 36) : Does (format_hyphenated i p q case) ⟨q, 36⟩ (hypEncS case) xs q 36 m :=
  (format_hyphenated_auto_spec hi case hx hl hw hd).ret

/-! ### The specification of `parse` -/

theorem simpleS_iff (xs u : List Byte) : simpleS xs = some u ↔ Spec.IsUuidSimple xs u := by
  unfold simpleS
  split <;> rename_i h
  · exact isSimple_iff h u
  · exact ⟨(by intro h; cases h), fun h' => (h (isSimple_length h')).elim⟩

theorem hyphenatedS_iff (xs u : List Byte) : hyphenatedS xs = some u ↔ Spec.IsUuidHyphenated xs u := by
  unfold hyphenatedS
  split <;> rename_i h
  · exact isHyphenated_iff h u
  · exact ⟨(by intro h; cases h), fun h' => (h (isHyphenated_length h')).elim⟩

theorem urn_eq : Spec.ascii "urn:uuid:" = URN := by decide
theorem brace_eq : Spec.ascii "{" = [0x7b#8] ∧ Spec.ascii "}" = [0x7d#8] := by decide

theorem braced_iff {xs : List Byte} (hl : xs.length = 38) (t : List Byte) : xs = [0x7b#8] ++ t ++ [0x7d#8] ↔
    (xs.getD 0 0 = 0x7b#8 ∧ xs.getD 37 0 = 0x7d#8) ∧ t = (xs.drop 1).take 36 := by
  constructor
  · rintro rfl
    have ht : t.length = 36 := by simpa using hl
    refine ⟨⟨rfl, ?_⟩, ?_⟩
    · simp [ht]
    · simp [ht]
  · rintro ⟨⟨h1, h2⟩, rfl⟩
    obtain ⟨f, rfl⟩ := list_map hl
    change f 0 = _ at h1
    change f 37 = _ at h2
    rw [← h1, ← h2]
    rfl

theorem parseS_iff (xs u : List Byte) : parseS xs = some u ↔ Spec.IsUuid xs u := by
  unfold Spec.IsUuid
  rw [urn_eq, brace_eq.1, brace_eq.2]
  unfold parseS
  have len_b : ∀ t, xs = [0x7b#8] ++ t ++ [0x7d#8] → Spec.IsUuidHyphenated t u → xs.length = 38 := by
    rintro t rfl h; simp [isHyphenated_length h]
  have len_u : ∀ t, xs = URN ++ t → Spec.IsUuidHyphenated t u → xs.length = 45 := by
    rintro t rfl h; simp [isHyphenated_length h, URN]
  have hA := fun h : Spec.IsUuidSimple xs u => isSimple_length h
  have hB := fun h : Spec.IsUuidHyphenated xs u => isHyphenated_length h
  split <;> rename_i h32
  · rw [isSimple_iff h32]
    refine ⟨.inl, ?_⟩
    rintro (h | h | ⟨t, h1, h2⟩ | ⟨t, h1, h2⟩)
    · exact h
    · have := hB h; omega
    · have := len_b t h1 h2; omega
    · have := len_u t h1 h2; omega
  split <;> rename_i h36
  · rw [isHyphenated_iff h36]
    refine ⟨fun h => .inr (.inl h), ?_⟩
    rintro (h | h | ⟨t, h1, h2⟩ | ⟨t, h1, h2⟩)
    · exact (h32 (hA h)).elim
    · exact h
    · have := len_b t h1 h2; omega
    · have := len_u t h1 h2; omega
  split <;> rename_i h38
  · have hsl : ((xs.drop 1).take 36).length = 36 := by rw [List.length_take, List.length_drop]; omega
    constructor
    · intro h
      split at h <;> rename_i hc
      · exact .inr (.inr (.inl ⟨_, (braced_iff h38 _).2 ⟨hc, rfl⟩, (isHyphenated_iff hsl u).1 h⟩))
      · cases h
    · rintro (h | h | ⟨t, h1, h2⟩ | ⟨t, h1, h2⟩)
      · exact (h32 (hA h)).elim
      · exact (h36 (hB h)).elim
      · obtain ⟨hc, rfl⟩ := (braced_iff h38 t).1 h1
        rw [if_pos hc]
        exact (isHyphenated_iff hsl u).2 h2
      · have := len_u t h1 h2; omega
  split <;> rename_i h45
  · have hsl : (xs.drop 9).length = 36 := by rw [List.length_drop]; omega
    constructor
    · intro h
      split at h <;> rename_i hc
      · exact .inr (.inr (.inr ⟨xs.drop 9, by rw [← hc, List.take_append_drop], (isHyphenated_iff hsl u).1 h⟩))
      · cases h
    · rintro (h | h | ⟨t, h1, h2⟩ | ⟨t, h1, h2⟩)
      · exact (h32 (hA h)).elim
      · exact (h36 (hB h)).elim
      · have := len_b t h1 h2; omega
      · have e1 : xs.take 9 = URN := by rw [h1]; rfl
        have e2 : xs.drop 9 = t := by rw [h1]; rfl
        rw [if_pos e1, e2]
        exact (isHyphenated_iff (by rw [← e2]; exact hsl) u).2 h2
  · constructor
    · intro h; cases h
    · rintro (h | h | ⟨t, h1, h2⟩ | ⟨t, h1, h2⟩)
      · exact (h32 (hA h)).elim
      · exact (h36 (hB h)).elim
      · exact (h38 (len_b t h1 h2)).elim
      · exact (h45 (len_u t h1 h2)).elim

end Simd.Uuid
