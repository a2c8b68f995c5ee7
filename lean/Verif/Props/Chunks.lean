import Verif.Props.Anywhere
import Verif.Lemmas.Chunks
/-
C65: encoding or decoding in pieces of whole groups is encoding or decoding the whole. The pieces may be anywhere in memory; none overlaps
the destination.
-/
namespace Simd

theorem baseText_length (k : Nat) (ch) (xs : List Byte) : (Spec.baseText k ch xs).length = (8 * xs.length + k - 1) / k := by
  simp [Spec.baseText]

theorem padTo_of_dvd {q : Nat} {xs : List Byte} (h : xs.length % q = 0) : Spec.padTo q xs = xs := by
  unfold Spec.padTo
  rw [h, Nat.sub_zero, Nat.mod_self]; simp
theorem padTo_append_dvd {q : Nat} {xs ys : List Byte} (h : xs.length % q = 0) : Spec.padTo q (xs ++ ys) = xs ++ Spec.padTo q ys := by
  unfold Spec.padTo
  rw [List.length_append, Nat.add_mod, h, Nat.zero_add, Nat.mod_mod, List.append_assoc]

/-- Reads and NoOverlap for pieces given with their contents. -/
def Pieces (m : Mem) (q : Ptr) (d : Nat) (cs : List (Ptr × List Byte)) : Prop :=
  ∀ c ∈ cs, Spec.Reads m c.1 c.2 ∧ Spec.NoOverlap c.1 c.2.length q d

theorem chunks_encode {f : Slice → Slice → Prog Slice} {text : List Byte → List Byte} {g : Nat} (h0 : text [] = [])
    (ha : ∀ a b, a.length % g = 0 → text (a ++ b) = text a ++ text b) {m : Mem} {q : Ptr} {d : Nat} {cs : List (Ptr × List Byte)} (hw : Spec.Writable m q d)
    (hb : Spec.Blocks g (cs.map Prod.snd)) (hc : Pieces m q d cs) (hf : ∀ c ∈ cs, Handles f d ⟨c.1, c.2, some (text c.2)⟩) :
    let t := text (cs.map Prod.snd).flatten
    let run := (Spec.inChunks f (cs.map fun c => ⟨c.1, c.2.length⟩) q d).run m
    (t.length ≤ d → ∃ m', run = .ok t.length m' ∧ Spec.Wrote m m' q t) ∧ (d < t.length → ∃ m', run = .err m') := by
  have h := (inChunks_run (f := f) (D := d) (cs.map fun c => ⟨c.1, c.2, some (text c.2)⟩) m q d (Nat.le_refl _) hw
    (by simp only [List.forall_mem_map]; exact hc) (by simp only [List.forall_mem_map]; exact hf)).1 (cs.map fun c => text c.2)
    (by simp [List.map_map, Function.comp_def])
  have e : (cs.map fun c => text c.2).flatten = text (cs.map Prod.snd).flatten := by
    rw [← blocks_text h0 ha _ hb, List.flatMap_map, List.flatMap_def]
  rw [List.map_map, e] at h
  exact h

theorem chunks_decode {f : Slice → Slice → Prog Slice} {V : List Byte → List Byte → Prop} {g' : Nat} (h0 : ∀ ys, V [] ys → ys = [])
    (hs : ∀ ys a b, V (a ++ b) ys → a.length % g' = 0 → ∃ y z, ys = y ++ z ∧ V a y ∧ V b z)
    {m : Mem} {q : Ptr} {d : Nat} {cs : List (Ptr × List Byte)} (hw : Spec.Writable m q d)
    (hb : Spec.Blocks g' (cs.map Prod.snd)) (hc : Pieces m q d cs) (hf : ∀ c ∈ cs, ∀ y, V c.2 y → Handles f d ⟨c.1, c.2, some y⟩)
    {ys : List Byte} (hy : V (cs.map Prod.snd).flatten ys) :
    let run := (Spec.inChunks f (cs.map fun c => ⟨c.1, c.2.length⟩) q d).run m
    (ys.length ≤ d → ∃ m', run = .ok ys.length m' ∧ Spec.Wrote m m' q ys) ∧ (d < ys.length → ∃ m', run = .err m') := by
  obtain ⟨yss, rfl, hl, h1⟩ := blocks_split h0 hs _ ys hb hy
  rw [List.length_map] at hl
  have hz : ∀ e ∈ cs.zip yss, e.1 ∈ cs ∧ V e.1.2 e.2 := by
    intro e he
    refine ⟨(List.of_mem_zip he).1, ?_⟩
    obtain ⟨i, hi, rfl⟩ := List.getElem_of_mem he
    rw [List.length_zip] at hi
    rw [List.getElem_zip]
    have := h1 i (by rw [List.length_map]; omega) (by omega)
    rwa [List.getElem_map] at this
  have h := (inChunks_run (f := f) (D := d) ((cs.zip yss).map fun e => ⟨e.1.1, e.1.2, some e.2⟩) m q d (Nat.le_refl _) hw
    (by simp only [List.forall_mem_map]; exact fun e he => hc e.1 (hz e he).1)
    (by simp only [List.forall_mem_map]; exact fun e he => hf e.1 (hz e he).1 e.2 (hz e he).2)).1 yss
    (by
      rw [List.map_map, show (Piece.res ∘ fun e : (Ptr × List Byte) × List Byte => (⟨e.1.1, e.1.2, some e.2⟩ : Piece)) = some ∘ Prod.snd from rfl,
        ← List.map_map, List.map_snd_zip (by omega)])
  rw [List.map_map, show ((fun c : Piece => (⟨c.ptr, c.src.length⟩ : Slice)) ∘ fun e : (Ptr × List Byte) × List Byte => (⟨e.1.1, e.1.2, some e.2⟩ : Piece)) =
    (fun c => ⟨c.1, c.2.length⟩) ∘ Prod.fst from rfl, ← List.map_map, List.map_fst_zip (by omega)] at h
  exact h

/-- If the whole is no valid text, the result is an error. -/
theorem chunks_err {f : Slice → Slice → Prog Slice} {V : List Byte → List Byte → Prop} {g' : Nat} (h0 : V [] [])
    (ha : ∀ a b y z, a.length % g' = 0 → V a y → V b z → V (a ++ b) (y ++ z))
    {m : Mem} {q : Ptr} {d : Nat} {cs : List (Ptr × List Byte)} (hw : Spec.Writable m q d) (hb : Spec.Blocks g' (cs.map Prod.snd)) (hc : Pieces m q d cs)
    (hf : ∀ c ∈ cs, ∀ y, V c.2 y → Handles f d ⟨c.1, c.2, some y⟩)
    (hn : ∀ c ∈ cs, (¬ ∃ y, V c.2 y) → Handles f d ⟨c.1, c.2, none⟩) (hy : ¬ ∃ ys, V (cs.map Prod.snd).flatten ys) :
    ∃ m', (Spec.inChunks f (cs.map fun c => ⟨c.1, c.2.length⟩) q d).run m = .err m' := by
  classical
  let r : List Byte → Option (List Byte) := fun x => if h : ∃ y, V x y then some h.choose else none
  have hr : ∀ c ∈ cs, Handles f d ⟨c.1, c.2, r c.2⟩ := by
    intro c hm
    by_cases h : ∃ y, V c.2 y
    · simp only [r, dif_pos h]; exact hf c hm _ h.choose_spec
    · simp only [r, dif_neg h]; exact hn c hm h
  have h := (inChunks_run (f := f) (D := d) (cs.map fun c => ⟨c.1, c.2, r c.2⟩) m q d (Nat.le_refl _) hw
    (by simp only [List.forall_mem_map]; exact hc) (by simp only [List.forall_mem_map]; exact hr)).2 (by
      have hy : ¬ ∀ c ∈ cs, ∃ y, V c.2 y := fun h => hy (blocks_join h0 ha _ hb (by simp only [List.forall_mem_map]; exact h))
      obtain ⟨c, h⟩ := Classical.not_forall.1 hy
      obtain ⟨hm, h⟩ := Classical.not_imp.1 h
      exact ⟨_, List.mem_map.2 ⟨c, hm, rfl⟩, dif_neg h⟩)
  rw [List.map_map] at h
  exact h

namespace Base64

theorem base64_append (url pad : Bool) (a b : List Byte) (h : a.length % 3 = 0) : Spec.base64 url pad (a ++ b) = Spec.base64 url pad a ++ Spec.base64 url pad b := by
  have ht := baseText_append (k := 6) (n := 8 * a.length / 6) (by decide) (Spec.base64Char url) a b (by omega)
  have hl : (Spec.baseText 6 (Spec.base64Char url) a).length % 4 = 0 := by rw [baseText_length]; omega
  unfold Spec.base64
  rw [ht, padTo_append_dvd hl, padTo_of_dvd hl]
  split <;> rfl

theorem base64_length (url pad : Bool) (xs : List Byte) : (Spec.base64 url pad xs).length = encLen pad xs.length := by
  cases url <;> cases pad
  · rw [← (show IsVariant STANDARD_NO_PAD false false by unfold IsVariant; simp).text, text_length]; rfl
  · rw [← (show IsVariant STANDARD false true by unfold IsVariant; simp).text, text_length]; rfl
  · rw [← (show IsVariant URL_SAFE_NO_PAD true false by unfold IsVariant; simp).text, text_length]; rfl
  · rw [← (show IsVariant URL_SAFE true true by unfold IsVariant; simp).text, text_length]; rfl

theorem base64_split (url pad : Bool) (ys a b : List Byte) (h : Spec.base64 url pad ys = a ++ b) (ha : a.length % 4 = 0) :
    ∃ y z, ys = y ++ z ∧ Spec.base64 url pad y = a ∧ Spec.base64 url pad z = b := by
  have hl := congrArg List.length h
  rw [base64_length, List.length_append] at hl
  by_cases hk : 3 * (a.length / 4) ≤ ys.length
  · have e := base64_append url pad (ys.take (3 * (a.length / 4))) (ys.drop (3 * (a.length / 4))) (by rw [List.length_take]; omega)
    rw [List.take_append_drop, h] at e
    have := List.append_inj e (by
      rw [base64_length, List.length_take, Nat.min_eq_left hk]
      unfold encLen
      split <;> [skip; split] <;> omega)
    exact ⟨_, _, (List.take_append_drop ..).symm, this.1.symm, this.2.symm⟩
  · have hb : b = [] := by
      apply List.eq_nil_of_length_eq_zero
      unfold encLen at hl
      split at hl <;> [skip; split at hl] <;> omega
    subst hb
    rw [List.append_nil] at h
    exact ⟨ys, [], by simp, h, by cases url <;> cases pad <;> rfl⟩

theorem base64_eq_nil {url pad : Bool} {ys : List Byte} (h : Spec.base64 url pad ys = []) : ys = [] := by
  have := congrArg List.length h
  rw [base64_length] at this
  apply List.eq_nil_of_length_eq_zero
  unfold encLen at this
  simp only [List.length_nil] at this
  split at this <;> [skip; split at this] <;> omega

theorem handles_encode (P : Plat) {i : Option Isa} (hi : i ≠ some .sse2) {config url pad} (hv : IsVariant config url pad) (D : Nat) (p : Ptr) (xs : List Byte)
    (hx : xs.length ≤ P.isizeMax) : Handles (encode P i config) D ⟨p, xs, some (Spec.base64 url pad xs)⟩ := fun m q d _ hr hw hd =>
  ⟨fun h => C59_encode P hi hv m p q xs d hr hw hd hx h, fun h => ⟨m, C59_encode_short P hi hv m p q xs d hx h⟩⟩

/-- C65, `encode` of base64-simd: pieces whose lengths are divisible by 3, except the last, encoded into consecutive parts of a destination,
give the encoding of all the data; the destination is too short for the pieces exactly if it is too short for the whole. -/
theorem C65_encode (P : Plat) {i : Option Isa} (hi : i ≠ some .sse2) {config url pad} (hv : IsVariant config url pad)
    (m : Mem) (q : Ptr) (d : Nat) (cs : List (Ptr × List Byte)) (hw : Spec.Writable m q d) (hb : Spec.Blocks 3 (cs.map Prod.snd))
    (hc : Pieces m q d cs) (hx : ∀ c ∈ cs, c.2.length ≤ P.isizeMax) :
    let t := Spec.base64 url pad (cs.map Prod.snd).flatten
    let run := (Spec.inChunks (encode P i config) (cs.map fun c => ⟨c.1, c.2.length⟩) q d).run m
    (t.length ≤ d → ∃ m', run = .ok t.length m' ∧ Spec.Wrote m m' q t) ∧ (d < t.length → ∃ m', run = .err m') :=
  chunks_encode (by cases url <;> cases pad <;> rfl) (base64_append url pad) hw hb hc fun c hm => handles_encode P hi hv d c.1 c.2 (hx c hm)

theorem handles_decode {i : Option Isa} (hi : i ≠ some .sse2) {config url pad} (hv : IsVariant config url pad) (D : Nat) (p : Ptr) (xs y : List Byte)
    (hy : Spec.base64 url pad y = xs) : Handles (decode i config) D ⟨p, xs, some y⟩ := fun m q d _ hr hw hd => by
  subst hy
  have h := C59_decode hi hv m p q y d hr hw hd
  exact ⟨h.1, fun hl => ⟨m, h.2 hl⟩⟩
theorem handles_decode_err {i : Option Isa} (hi : i ≠ some .sse2) {config url pad} (hv : IsVariant config url pad) (D : Nat) (p : Ptr) (xs : List Byte)
    (hy : ¬ ∃ y, Spec.base64 url pad y = xs) : Handles (decode i config) D ⟨p, xs, none⟩ := fun m q d _ hr hw hd => by
  obtain ⟨m', h, -⟩ := C59_decode_err hi hv m p q xs d hr hw hd hy
  exact ⟨m', h⟩

/-- C65, `decode` of base64-simd: a valid text, cut into pieces whose lengths are divisible by 4, except the last, is decoded piece by piece
to the same bytes. -/
theorem C65_decode {i : Option Isa} (hi : i ≠ some .sse2) {config url pad} (hv : IsVariant config url pad)
    (m : Mem) (q : Ptr) (d : Nat) (cs : List (Ptr × List Byte)) (hw : Spec.Writable m q d) (hb : Spec.Blocks 4 (cs.map Prod.snd)) (hc : Pieces m q d cs)
    (ys : List Byte) (hy : Spec.base64 url pad ys = (cs.map Prod.snd).flatten) :
    let run := (Spec.inChunks (decode i config) (cs.map fun c => ⟨c.1, c.2.length⟩) q d).run m
    (ys.length ≤ d → ∃ m', run = .ok ys.length m' ∧ Spec.Wrote m m' q ys) ∧ (d < ys.length → ∃ m', run = .err m') :=
  chunks_decode (V := fun x y => Spec.base64 url pad y = x) (fun _ => base64_eq_nil) (base64_split url pad) hw hb hc (fun c _ y h => handles_decode hi hv d c.1 c.2 y h) hy

/-- C65, `decode` of base64-simd without padding: if the whole is not a valid text, decoding piece by piece fails too. -/
theorem C65_decode_err {i : Option Isa} (hi : i ≠ some .sse2) {config url} (hv : IsVariant config url false)
    (m : Mem) (q : Ptr) (d : Nat) (cs : List (Ptr × List Byte)) (hw : Spec.Writable m q d) (hb : Spec.Blocks 4 (cs.map Prod.snd)) (hc : Pieces m q d cs)
    (hy : ¬ ∃ ys, Spec.base64 url false ys = (cs.map Prod.snd).flatten) :
    ∃ m', (Spec.inChunks (decode i config) (cs.map fun c => ⟨c.1, c.2.length⟩) q d).run m = .err m' := by
  refine chunks_err (V := fun x y => Spec.base64 url false y = x) (by cases url <;> rfl) ?_ hw hb hc
    (fun c _ y h => handles_decode hi hv d c.1 c.2 y h) (fun c _ h => handles_decode_err hi hv d c.1 c.2 h) hy
  rintro _ _ y z hl rfl rfl
  refine base64_append url false y z ?_
  rw [base64_length] at hl
  simp only [encLen, Bool.false_eq_true, if_false] at hl
  split at hl <;> omega

/-- C65: with padding that is false: a padded piece in the middle is accepted. -/
theorem C65_padded : Spec.Blocks 4 [[0x51#8, 0x51#8, 0x3d#8, 0x3d#8], [0x51#8, 0x55#8, 0x4a#8, 0x44#8]] ∧
    ∀ {i : Option Isa} (_ : i ≠ some .sse2) {config url} (_ : IsVariant config url true) (m : Mem) (p q : Ptr) (d : Nat) (_ : Spec.Writable m q d) (_ : 4 ≤ d)
      (_ : Spec.Reads m p [0x51#8, 0x51#8, 0x3d#8, 0x3d#8, 0x51#8, 0x55#8, 0x4a#8, 0x44#8]) (_ : Spec.NoOverlap p 8 q d),
      (∃ m', (Spec.inChunks (decode i config) [⟨p, 4⟩, ⟨⟨p.buf, p.off + 4⟩, 4⟩] q d).run m = .ok 4 m' ∧ Spec.Wrote m m' q [0x41#8, 0x41#8, 0x42#8, 0x43#8]) ∧
      ∃ m', (decode i config ⟨p, 8⟩ ⟨q, d⟩).run m = .err m' := by
  refine ⟨⟨rfl, trivial⟩, fun {i} hi {config url} hv m p q d hw h4 hr hd => ⟨?_, ?_⟩⟩
  · have hr2 : Spec.Reads m ⟨p.buf, p.off + 4⟩ [0x51#8, 0x55#8, 0x4a#8, 0x44#8] := by
      refine ⟨by have := hr.1; dsimp only [List.length_cons, List.length_nil] at this ⊢; omega, fun i hi => ?_⟩
      have := hr.2 (4 + i) (by dsimp only [List.length_cons, List.length_nil] at hi ⊢; omega)
      dsimp only
      rw [Nat.add_assoc, this]
      have hi' : i = 0 ∨ i = 1 ∨ i = 2 ∨ i = 3 := by dsimp only [List.length_cons, List.length_nil] at hi; omega
      rcases hi' with rfl | rfl | rfl | rfl <;> rfl
    have hr1 : Spec.Reads m p [0x51#8, 0x51#8, 0x3d#8, 0x3d#8] := by
      refine ⟨by have := hr.1; dsimp only [List.length_cons, List.length_nil] at this ⊢; omega, fun i hi => ?_⟩
      rw [hr.2 i (by dsimp only [List.length_cons, List.length_nil] at hi ⊢; omega)]
      have hi' : i = 0 ∨ i = 1 ∨ i = 2 ∨ i = 3 := by dsimp only [List.length_cons, List.length_nil] at hi; omega
      rcases hi' with rfl | rfl | rfl | rfl <;> rfl
    refine ((inChunks_run (f := decode i config) (D := d) [⟨p, [0x51#8, 0x51#8, 0x3d#8, 0x3d#8], some [0x41#8]⟩,
      ⟨⟨p.buf, p.off + 4⟩, [0x51#8, 0x55#8, 0x4a#8, 0x44#8], some [0x41#8, 0x42#8, 0x43#8]⟩] m q d (Nat.le_refl _) hw ?_ ?_).1
      [[0x41#8], [0x41#8, 0x42#8, 0x43#8]] rfl).1 h4
    · intro c hc
      simp only [List.mem_cons, List.not_mem_nil, or_false] at hc
      rcases hc with rfl | rfl
      · exact ⟨hr1, fun i j hi hj => hd i j (by dsimp only [List.length_cons, List.length_nil] at hi; omega) hj⟩
      · refine ⟨hr2, fun i j hi hj hb => hd (4 + i) j (by dsimp only [List.length_cons, List.length_nil] at hi; omega) hj ⟨hb.1, ?_⟩⟩
        have := hb.2
        dsimp only at this
        omega
    · intro c hc
      simp only [List.mem_cons, List.not_mem_nil, or_false] at hc
      rcases hc with rfl | rfl
      · exact handles_decode hi hv d _ _ _ (by cases url <;> decide +kernel)
      · exact handles_decode hi hv d _ _ _ (by cases url <;> decide +kernel)
  · obtain ⟨m', h, -⟩ := C59_decode_err hi hv m p q _ d hr hw hd ((hv.full_none _).1 (by
      rcases hv with ⟨rfl, rfl, h⟩ | ⟨rfl, rfl, h⟩ | ⟨rfl, rfl, h⟩ | ⟨rfl, rfl, h⟩ <;> first | cases h; decide +kernel | cases h))
    exact ⟨m', h⟩

end Base64

namespace Base32

theorem encLen_tail (pad : Bool) (n : Nat) : ∃ r, encLen pad n = n / 5 * 8 + r ∧ (n % 5 = 0 → r = 0) ∧ (n % 5 ≠ 0 → 0 < r ∧ r ≤ 8 ∧ (pad = false → r < 8)) := by
  unfold encLen
  refine ⟨_, rfl, fun h => if_pos h, fun h => ?_⟩
  rw [if_neg h]
  cases pad
  · have : n % 5 < 5 := Nat.mod_lt _ (by decide)
    have : n % 5 = 1 ∨ n % 5 = 2 ∨ n % 5 = 3 ∨ n % 5 = 4 := by omega
    rcases this with e | e | e | e <;> rw [e] <;> decide
  · simp

theorem base32_append (hex pad : Bool) (a b : List Byte) (h : a.length % 5 = 0) : Spec.base32 hex pad (a ++ b) = Spec.base32 hex pad a ++ Spec.base32 hex pad b := by
  have ht := baseText_append (k := 5) (n := 8 * a.length / 5) (by decide) (Spec.base32Char hex) a b (by omega)
  have hl : (Spec.baseText 5 (Spec.base32Char hex) a).length % 8 = 0 := by rw [baseText_length]; omega
  unfold Spec.base32
  rw [ht, padTo_append_dvd hl, padTo_of_dvd hl]
  split <;> rfl

theorem base32_length (hex pad : Bool) (xs : List Byte) : (Spec.base32 hex pad xs).length = encLen pad xs.length := by
  cases hex <;> cases pad
  · rw [← (show IsVariant BASE32_NO_PAD false false by unfold IsVariant; simp).text, text_length]; rfl
  · rw [← (show IsVariant BASE32 false true by unfold IsVariant; simp).text, text_length]; rfl
  · rw [← (show IsVariant BASE32HEX_NO_PAD true false by unfold IsVariant; simp).text, text_length]; rfl
  · rw [← (show IsVariant BASE32HEX true true by unfold IsVariant; simp).text, text_length]; rfl

theorem base32_split (hex pad : Bool) (ys a b : List Byte) (h : Spec.base32 hex pad ys = a ++ b) (ha : a.length % 8 = 0) :
    ∃ y z, ys = y ++ z ∧ Spec.base32 hex pad y = a ∧ Spec.base32 hex pad z = b := by
  have hl := congrArg List.length h
  rw [base32_length, List.length_append] at hl
  by_cases hk : 5 * (a.length / 8) ≤ ys.length
  · have e := base32_append hex pad (ys.take (5 * (a.length / 8))) (ys.drop (5 * (a.length / 8))) (by rw [List.length_take]; omega)
    rw [List.take_append_drop, h] at e
    have := List.append_inj e (by
      rw [base32_length, List.length_take, Nat.min_eq_left hk]
      obtain ⟨r, e, h0, h1⟩ := encLen_tail pad (5 * (a.length / 8))
      rw [e]
      omega)
    exact ⟨_, _, (List.take_append_drop ..).symm, this.1.symm, this.2.symm⟩
  · have hb : b = [] := by
      apply List.eq_nil_of_length_eq_zero
      obtain ⟨r, e, h0, h1⟩ := encLen_tail pad ys.length
      omega
    subst hb
    rw [List.append_nil] at h
    exact ⟨ys, [], by simp, h, by cases hex <;> cases pad <;> rfl⟩

theorem base32_eq_nil {hex pad : Bool} {ys : List Byte} (h : Spec.base32 hex pad ys = []) : ys = [] := by
  have := congrArg List.length h
  rw [base32_length] at this
  apply List.eq_nil_of_length_eq_zero
  simp only [List.length_nil] at this
  obtain ⟨r, e, h0, h1⟩ := encLen_tail pad ys.length
  omega

theorem handles_encode (P : Plat) (w : Bool) {i : Option Isa} (hi : Impl i) {config hex pad} (hv : IsVariant config hex pad) (D : Nat) (p : Ptr) (xs : List Byte)
    (hx : xs.length ≤ P.isizeMax) : Handles (encode P w i config) D ⟨p, xs, some (Spec.base32 hex pad xs)⟩ := fun m q d _ hr hw hd =>
  ⟨fun h => C59_encode P w hi hv m p q xs d hr hw hd hx h, fun h => ⟨m, C59_encode_short P w hi hv m p q xs d hx h⟩⟩

/-- C65, `encode` of base32-simd: pieces whose lengths are divisible by 5, except the last, encoded into consecutive parts of a destination,
give the encoding of all the data; the destination is too short for the pieces exactly if it is too short for the whole. -/
theorem C65_encode (P : Plat) (w : Bool) {i : Option Isa} (hi : Impl i) {config hex pad} (hv : IsVariant config hex pad)
    (m : Mem) (q : Ptr) (d : Nat) (cs : List (Ptr × List Byte)) (hw : Spec.Writable m q d) (hb : Spec.Blocks 5 (cs.map Prod.snd))
    (hc : Pieces m q d cs) (hx : ∀ c ∈ cs, c.2.length ≤ P.isizeMax) :
    let t := Spec.base32 hex pad (cs.map Prod.snd).flatten
    let run := (Spec.inChunks (encode P w i config) (cs.map fun c => ⟨c.1, c.2.length⟩) q d).run m
    (t.length ≤ d → ∃ m', run = .ok t.length m' ∧ Spec.Wrote m m' q t) ∧ (d < t.length → ∃ m', run = .err m') :=
  chunks_encode (by cases hex <;> cases pad <;> rfl) (base32_append hex pad) hw hb hc fun c hm => handles_encode P w hi hv d c.1 c.2 (hx c hm)

theorem handles_decode (w : Bool) {i : Option Isa} (hi : Impl i) {config hex pad} (hv : IsVariant config hex pad) (D : Nat) (p : Ptr) (xs y : List Byte)
    (hy : Spec.base32 hex pad y = xs) : Handles (decode w i config) D ⟨p, xs, some y⟩ := fun m q d _ hr hw hd => by
  subst hy
  have h := C59_decode w hi hv m p q y d hr hw hd
  exact ⟨h.1, fun hl => ⟨m, h.2 hl⟩⟩
theorem handles_decode_err (w : Bool) {i : Option Isa} (hi : Impl i) {config hex pad} (hv : IsVariant config hex pad) (D : Nat) (p : Ptr) (xs : List Byte)
    (hy : ¬ ∃ y, Spec.base32 hex pad y = xs) : Handles (decode w i config) D ⟨p, xs, none⟩ := fun m q d _ hr hw hd => by
  obtain ⟨m', h, -⟩ := C59_decode_err w hi hv m p q xs d hr hw hd hy
  exact ⟨m', h⟩

/-- C65, `decode` of base32-simd: a valid text, cut into pieces whose lengths are divisible by 8, except the last, is decoded piece by piece
to the same bytes. -/
theorem C65_decode (w : Bool) {i : Option Isa} (hi : Impl i) {config hex pad} (hv : IsVariant config hex pad)
    (m : Mem) (q : Ptr) (d : Nat) (cs : List (Ptr × List Byte)) (hw : Spec.Writable m q d) (hb : Spec.Blocks 8 (cs.map Prod.snd)) (hc : Pieces m q d cs)
    (ys : List Byte) (hy : Spec.base32 hex pad ys = (cs.map Prod.snd).flatten) :
    let run := (Spec.inChunks (decode w i config) (cs.map fun c => ⟨c.1, c.2.length⟩) q d).run m
    (ys.length ≤ d → ∃ m', run = .ok ys.length m' ∧ Spec.Wrote m m' q ys) ∧ (d < ys.length → ∃ m', run = .err m') :=
  chunks_decode (V := fun x y => Spec.base32 hex pad y = x) (fun _ => base32_eq_nil) (base32_split hex pad) hw hb hc (fun c _ y h => handles_decode w hi hv d c.1 c.2 y h) hy

/-- C65, `decode` of base32-simd without padding: if the whole is not a valid text, decoding piece by piece fails too. -/
theorem C65_decode_err (w : Bool) {i : Option Isa} (hi : Impl i) {config hex} (hv : IsVariant config hex false)
    (m : Mem) (q : Ptr) (d : Nat) (cs : List (Ptr × List Byte)) (hw : Spec.Writable m q d) (hb : Spec.Blocks 8 (cs.map Prod.snd)) (hc : Pieces m q d cs)
    (hy : ¬ ∃ ys, Spec.base32 hex false ys = (cs.map Prod.snd).flatten) :
    ∃ m', (Spec.inChunks (decode w i config) (cs.map fun c => ⟨c.1, c.2.length⟩) q d).run m = .err m' := by
  refine chunks_err (V := fun x y => Spec.base32 hex false y = x) (by cases hex <;> rfl) ?_ hw hb hc
    (fun c _ y h => handles_decode w hi hv d c.1 c.2 y h) (fun c _ h => handles_decode_err w hi hv d c.1 c.2 h) hy
  rintro _ _ y z hl rfl rfl
  refine base32_append hex false y z ?_
  rw [base32_length] at hl
  obtain ⟨r, e, h0, h1⟩ := encLen_tail false y.length
  have := h1
  simp only [forall_const] at this
  omega

end Base32

namespace Hex

theorem hexEncode_append (u : Bool) (a b : List Byte) : Spec.hexEncode u (a ++ b) = Spec.hexEncode u a ++ Spec.hexEncode u b := by
  simp [Spec.hexEncode]

/-- C65, `encode` of hex-simd: the data may be cut anywhere. -/
theorem C65_encode (P : Plat) (i : Option Isa) (case : AsciiCase) (m : Mem) (q : Ptr) (d : Nat) (cs : List (Ptr × List Byte)) (hw : Spec.Writable m q d)
    (hc : Pieces m q d cs) (hd : d ≤ P.usizeMax) :
    let t := Spec.hexEncode (case == .upper) (cs.map Prod.snd).flatten
    let run := (Spec.inChunks (fun s t => encode P i s t case) (cs.map fun c => ⟨c.1, c.2.length⟩) q d).run m
    (t.length ≤ d → ∃ m', run = .ok t.length m' ∧ Spec.Wrote m m' q t) ∧ (d < t.length → ∃ m', run = .err m') := by
  refine chunks_encode (g := 1) rfl (fun a b _ => hexEncode_append _ a b) hw ?_ hc fun c _ m q e he hr hw ho => ?_
  · clear hc
    generalize cs.map Prod.snd = xss
    match xss with
    | [] => trivial
    | x :: xss =>
      induction xss generalizing x with
      | nil => trivial
      | cons y r ih => exact ⟨Nat.mod_one _, ih y⟩
  · have h := C59_encode P i case m c.1 q c.2 e hr hw (Nat.le_trans he hd) ho
    dsimp only
    rw [hexEncode_length]
    exact ⟨h.1, fun hl => ⟨m, h.2 hl⟩⟩

theorem isHexOf_split (ys a b : List Byte) (h : Spec.IsHexOf (a ++ b) ys) (ha : a.length % 2 = 0) : ∃ y z, ys = y ++ z ∧ Spec.IsHexOf a y ∧ Spec.IsHexOf b z := by
  have hl := isHexOf_length h
  rw [List.length_append] at hl
  unfold Spec.IsHexOf at h ⊢
  rw [← List.take_append_drop (a.length / 2) ys, hexEncode_append, List.map_append] at h
  have := List.append_inj h (by rw [List.length_map, hexEncode_length, List.length_take]; omega)
  exact ⟨_, _, (List.take_append_drop ..).symm, this.1, this.2⟩

theorem isHexOf_append (a b y z : List Byte) (ha : Spec.IsHexOf a y) (hb : Spec.IsHexOf b z) : Spec.IsHexOf (a ++ b) (y ++ z) := by
  unfold Spec.IsHexOf at *
  rw [List.map_append, ha, hb, hexEncode_append]

/-- C65, `decode` of hex-simd: a text cut into pieces of even length, except the last, is accepted piece by piece exactly if it is accepted
as a whole, with the same bytes. -/
theorem C65_decode (i : Option Isa) (m : Mem) (q : Ptr) (d : Nat) (cs : List (Ptr × List Byte)) (hw : Spec.Writable m q d)
    (hb : Spec.Blocks 2 (cs.map Prod.snd)) (hc : Pieces m q d cs) :
    let run := (Spec.inChunks (decode i) (cs.map fun c => ⟨c.1, c.2.length⟩) q d).run m
    (∀ ys, Spec.IsHexOf (cs.map Prod.snd).flatten ys →
      (ys.length ≤ d → ∃ m', run = .ok ys.length m' ∧ Spec.Wrote m m' q ys) ∧ (d < ys.length → ∃ m', run = .err m')) ∧
    ((¬ ∃ ys, Spec.IsHexOf (cs.map Prod.snd).flatten ys) → ∃ m', run = .err m') := by
  have hf : ∀ c ∈ cs, ∀ y, Spec.IsHexOf c.2 y → Handles (decode i) d ⟨c.1, c.2, some y⟩ := fun c _ y hy m q e _ hr hw ho => by
    have h := C59_decode i m c.1 q c.2 e hr hw ho
    exact ⟨h.1 y hy, fun hl => ⟨m, h.2.1 y hy hl⟩⟩
  refine ⟨fun ys hy => chunks_decode (V := Spec.IsHexOf) (fun ys h => ?_) isHexOf_split hw hb hc hf hy, fun hy =>
    chunks_err (V := Spec.IsHexOf) rfl (fun a b y z _ => isHexOf_append a b y z) hw hb hc hf (fun c _ hn m q e _ hr hw ho => ?_) hy⟩
  · have := isHexOf_length h
    exact List.eq_nil_of_length_eq_zero (by simp only [List.length_nil] at this; omega)
  · obtain ⟨m', h, -⟩ := (C59_decode i m c.1 q c.2 e hr hw ho).2.2 hn
    exact ⟨m', h⟩

end Hex

/-! ### Examples -/

/-- Twelve bytes, followed by room for twelve characters; the pieces are taken from anywhere, here in reverse order. -/
def chunkMem : Mem := ⟨1, fun _ => 24, fun _ i => if i < 12 then some (BitVec.ofNat 8 (0x41 + i)) else none⟩

example : Pieces chunkMem ⟨0, 12⟩ 12 [(⟨0, 6⟩, [0x47#8, 0x48#8, 0x49#8]), (⟨0, 0⟩, [0x41#8, 0x42#8])] ∧ Spec.Writable chunkMem ⟨0, 12⟩ 12 ∧
    Spec.Blocks 3 [[0x47#8, 0x48#8, 0x49#8], [0x41#8, 0x42#8]] := by
  refine ⟨?_, by unfold Spec.Writable; decide, rfl, trivial⟩
  intro c hc
  simp only [List.mem_cons, List.not_mem_nil, or_false] at hc
  rcases hc with rfl | rfl
  · refine ⟨⟨by decide, fun i h => ?_⟩, fun i j hi hj hb => ?_⟩
    · have : i = 0 ∨ i = 1 ∨ i = 2 := by simp at h; omega
      rcases this with rfl | rfl | rfl <;> rfl
    · have := hb.2; simp at hi this; omega
  · refine ⟨⟨by decide, fun i h => ?_⟩, fun i j hi hj hb => ?_⟩
    · have : i = 0 ∨ i = 1 := by simp at h; omega
      rcases this with rfl | rfl <;> rfl
    · have := hb.2; simp at hi this; omega

/-- A piece of two bytes in front of others would be wrong: its two characters of padding end up in the middle. -/
example : Spec.base64 false true [0x41#8, 0x42#8] ++ Spec.base64 false true [0x43#8] ≠ Spec.base64 false true [0x41#8, 0x42#8, 0x43#8] := by decide +kernel

end Simd
