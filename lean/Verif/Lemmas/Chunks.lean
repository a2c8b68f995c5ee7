import Verif.Spec.Chunks
import Verif.Lemmas.RawApi
import Verif.Lemmas.Rfc
import Verif.Lemmas.Wp
/-
Calls one after another into consecutive parts of a destination.
-/
namespace Simd

theorem Spec.Wrote.append {m m₁ m₂ : Mem} {q : Ptr} {a b : List Byte} (h : Spec.Wrote m m₁ q a) (h' : Spec.Wrote m₁ m₂ ⟨q.buf, q.off + a.length⟩ b) :
    Spec.Wrote m m₂ q (a ++ b) := by
  refine ⟨h'.1.trans h.1, h'.2.1.trans h.2.1, fun i hi => ?_, fun c o ho => ?_⟩
  · by_cases hia : i < a.length
    · rw [List.getElem_append_left hia, h'.2.2.2 _ _ (fun j _ => by dsimp only; omega)]
      exact h.2.2.1 i hia
    · rw [List.length_append] at hi
      rw [List.getElem_append_right (by omega)]
      have := h'.2.2.1 (i - a.length) (by omega)
      dsimp only at this
      rwa [show q.off + a.length + (i - a.length) = q.off + i by omega] at this
  · rw [List.length_append] at ho
    rw [h'.2.2.2 _ _ (fun j hj => by have := ho (a.length + j) (by omega); dsimp only; omega)]
    exact h.2.2.2 _ _ fun j hj => ho j (by omega)

theorem Spec.Wrote.reads {m m' : Mem} {p q : Ptr} {xs ys : List Byte} {d : Nat} (h : Spec.Wrote m m' q ys) (hr : Spec.Reads m p xs)
    (hd : Spec.NoOverlap p xs.length q d) (hl : ys.length ≤ d) : Spec.Reads m' p xs := by
  refine ⟨by rw [h.2.1]; exact hr.1, fun i hi => ?_⟩
  rw [h.2.2.2 _ _ fun j hj => hd i j hi (by omega)]
  exact hr.2 i hi

/-- A piece: where it is, its bytes, and what `f` makes of them (`none`: an error). -/
structure Piece where
  ptr : Ptr
  src : List Byte
  res : Option (List Byte)

/-- `f` does with the piece `c` what it should, anywhere in a destination of at most `D` bytes. -/
def Handles (f : Slice → Slice → Prog Slice) (D : Nat) (c : Piece) : Prop :=
  ∀ (m : Mem) (q : Ptr) (d : Nat), d ≤ D → Spec.Reads m c.ptr c.src → Spec.Writable m q d → Spec.NoOverlap c.ptr c.src.length q d →
    match c.res with
    | some ys => (ys.length ≤ d → ∃ m', (f ⟨c.ptr, c.src.length⟩ ⟨q, d⟩).run m = .ok ⟨q, ys.length⟩ m' ∧ Spec.Wrote m m' q ys) ∧
      (d < ys.length → ∃ m', (f ⟨c.ptr, c.src.length⟩ ⟨q, d⟩).run m = .err m')
    | none => ∃ m', (f ⟨c.ptr, c.src.length⟩ ⟨q, d⟩).run m = .err m'

theorem inChunks_run {f : Slice → Slice → Prog Slice} {D : Nat} : ∀ (cs : List Piece) (m : Mem) (q : Ptr) (d : Nat), d ≤ D → Spec.Writable m q d →
    (∀ c ∈ cs, Spec.Reads m c.ptr c.src ∧ Spec.NoOverlap c.ptr c.src.length q d) → (∀ c ∈ cs, Handles f D c) →
    (∀ yss : List (List Byte), cs.map Piece.res = yss.map some →
      (yss.flatten.length ≤ d → ∃ m', (Spec.inChunks f (cs.map fun c => ⟨c.ptr, c.src.length⟩) q d).run m = .ok yss.flatten.length m' ∧
        Spec.Wrote m m' q yss.flatten) ∧
      (d < yss.flatten.length → ∃ m', (Spec.inChunks f (cs.map fun c => ⟨c.ptr, c.src.length⟩) q d).run m = .err m')) ∧
    ((∃ c ∈ cs, c.res = none) → ∃ m', (Spec.inChunks f (cs.map fun c => ⟨c.ptr, c.src.length⟩) q d).run m = .err m')
  | [], m, q, d, _, _, _, _ => by
    refine ⟨fun yss hy => ?_, ?_⟩
    · cases yss with
      | cons a b => cases hy
      | nil =>
        exact ⟨fun _ => ⟨m, rfl, rfl, rfl, fun i hi => absurd hi (Nat.not_lt_zero _), fun _ _ _ => rfl⟩, fun h => absurd h (Nat.not_lt_zero _)⟩
    · rintro ⟨c, hc, -⟩; cases hc
  | c :: cs, m, q, d, hD, hw, hc, hf => by
    have h1 := hf c (.head _) m q d hD (hc c (.head _)).1 hw (hc c (.head _)).2
    simp only [List.map_cons]
    unfold Spec.inChunks
    cases hres : c.res with
    | none =>
      rw [hres] at h1
      obtain ⟨m₁, hr⟩ := h1
      refine ⟨fun yss hy => ?_, fun _ => ⟨m₁, by rw [run_bind, hr]⟩⟩
      cases yss with
      | nil => cases hy
      | cons a b => cases hy
    | some ys =>
      rw [hres] at h1
      by_cases hs : ys.length ≤ d
      · obtain ⟨m₁, hr, hW⟩ := h1.1 hs
        have ih := inChunks_run (f := f) (D := D) cs m₁ ⟨q.buf, q.off + ys.length⟩ (d - ys.length) (by omega)
          (by unfold Spec.Writable at hw ⊢; rw [hW.2.1]; dsimp only; omega)
          (fun e he => ⟨hW.reads (hc e (.tail _ he)).1 (hc e (.tail _ he)).2 hs, fun i j hi hj hb => by
            refine (hc e (.tail _ he)).2 i (ys.length + j) hi (by omega) ⟨hb.1, ?_⟩
            have := hb.2; dsimp only at this; omega⟩)
          (fun e he => hf e (.tail _ he))
        refine ⟨fun yss hy => ?_, ?_⟩
        · cases yss with
          | nil => cases hy
          | cons a yss =>
            rw [List.map_cons] at hy
            obtain ⟨ha, hy'⟩ := List.cons.inj hy
            cases ha
            rw [List.flatten_cons, List.length_append]
            refine ⟨fun hl => ?_, fun hl => ?_⟩
            · obtain ⟨m₂, hr₂, hW₂⟩ := (ih.1 yss hy').1 (by omega)
              refine ⟨m₂, ?_, hW.append hW₂⟩
              rw [run_bind, hr]
              dsimp only
              rw [run_bind, hr₂]
              rfl
            · obtain ⟨m₂, hr₂⟩ := (ih.1 yss hy').2 (by omega)
              refine ⟨m₂, ?_⟩
              rw [run_bind, hr]
              dsimp only
              rw [run_bind, hr₂]
        · rintro ⟨e, he, hn⟩
          cases he with
          | head => rw [hn] at hres; cases hres
          | tail _ he =>
            obtain ⟨m₂, hr₂⟩ := ih.2 ⟨e, he, hn⟩
            refine ⟨m₂, ?_⟩
            rw [run_bind, hr]
            dsimp only
            rw [run_bind, hr₂]
      · obtain ⟨m₁, hr⟩ := h1.2 (by omega)
        refine ⟨fun yss hy => ?_, fun _ => ⟨m₁, by rw [run_bind, hr]⟩⟩
        cases yss with
        | nil => cases hy
        | cons a yss =>
          rw [List.map_cons] at hy
          obtain ⟨ha, hy'⟩ := List.cons.inj hy
          cases ha
          rw [List.flatten_cons, List.length_append]
          exact ⟨fun hl => by omega, fun _ => ⟨m₁, by rw [run_bind, hr]⟩⟩

/-- A function that distributes over pieces of whole groups. -/
theorem blocks_text {g : Nat} {text : List Byte → List Byte} (h0 : text [] = []) (h : ∀ a b, a.length % g = 0 → text (a ++ b) = text a ++ text b) :
    ∀ xss : List (List Byte), Spec.Blocks g xss → xss.flatMap text = text xss.flatten
  | [], _ => h0.symm
  | [a], _ => by simp
  | a :: b :: r, hb => by
    rw [List.flatMap_cons, blocks_text h0 h (b :: r) hb.2]
    exact (h a _ hb.1).symm

/-- The same for inverses: a text `V` relates to data is cut into pieces of `g'` characters that `V` relates to pieces of the data. -/
theorem blocks_split {g' : Nat} {V : List Byte → List Byte → Prop} (h0 : ∀ ys, V [] ys → ys = [])
    (hs : ∀ ys a b, V (a ++ b) ys → a.length % g' = 0 → ∃ y z, ys = y ++ z ∧ V a y ∧ V b z) :
    ∀ (xss : List (List Byte)) (ys : List Byte), Spec.Blocks g' xss → V xss.flatten ys → ∃ yss : List (List Byte), yss.flatten = ys ∧
      yss.length = xss.length ∧ ∀ i, (h : i < xss.length) → (h' : i < yss.length) → V xss[i] yss[i]
  | [], ys, _, h => ⟨[], (h0 ys h).symm, rfl, fun i hi => absurd hi (Nat.not_lt_zero _)⟩
  | [a], ys, _, h => by
    refine ⟨[ys], by simp, rfl, fun i hi hi' => ?_⟩
    obtain rfl : i = 0 := by simp at hi; omega
    simpa using h
  | a :: b :: r, ys, hb, h => by
    obtain ⟨y, z, rfl, h1, h2⟩ := hs ys a (b :: r).flatten h hb.1
    obtain ⟨yss, rfl, h3, h4⟩ := blocks_split h0 hs (b :: r) z hb.2 h2
    refine ⟨y :: yss, rfl, by rw [List.length_cons, h3]; rfl, fun i hi hi' => ?_⟩
    cases i with
    | zero => exact h1
    | succ i => exact h4 i (Nat.lt_of_succ_lt_succ hi) (Nat.lt_of_succ_lt_succ hi')

/-- Valid pieces of whole groups make a valid whole. -/
theorem blocks_join {g' : Nat} {V : List Byte → List Byte → Prop} (h0 : V [] [])
    (ha : ∀ a b y z, a.length % g' = 0 → V a y → V b z → V (a ++ b) (y ++ z)) :
    ∀ xss : List (List Byte), Spec.Blocks g' xss → (∀ x ∈ xss, ∃ y, V x y) → ∃ ys, V xss.flatten ys
  | [], _, _ => ⟨[], h0⟩
  | [a], _, h => by
    obtain ⟨y, hy⟩ := h a (.head _)
    exact ⟨y, by simpa using hy⟩
  | a :: b :: r, hb, h => by
    obtain ⟨y, hy⟩ := h a (.head _)
    obtain ⟨z, hz⟩ := blocks_join h0 ha (b :: r) hb.2 fun x hx => h x (.tail _ hx)
    exact ⟨y ++ z, ha a _ y z hb.1 hy hz⟩

end Simd
