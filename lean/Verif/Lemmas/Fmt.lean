import Verif.Spec.Fmt
/-
Helper lemmas for C80: what sequences of writes do to a sink.
-/
namespace Simd
open Fmt

/-- What a writer does to any sink, with the room that is left. -/
def Emits (f : Sink → Sink × Bool) (t : List Char) : Prop :=
  ∀ k, (Spec.HasRoom k t.length → f k = (⟨k.out ++ t, k.room.map (· - t.length)⟩, true)) ∧
    (¬ Spec.HasRoom k t.length → (f k).2 = false ∧ ∃ p, p <+: t ∧ p.length < t.length ∧ (f k).1.out = k.out ++ p)

theorem Emits.written {f t} (h : Emits f t) (k : Sink) : Spec.Written t k (f k) :=
  ⟨fun hr => by rw [(h k).1 hr]; exact ⟨rfl, rfl⟩, fun hr => by
    obtain ⟨h1, p, h2, h3, h4⟩ := (h k).2 hr
    exact ⟨h1, p, h2, fun e => by rw [e] at h3; exact Nat.lt_irrefl _ h3, h4⟩⟩

theorem emits_str (s : List Char) : Emits (·.write_str s) s := by
  intro k
  obtain ⟨out, room⟩ := k
  cases room with
  | none => exact ⟨fun _ => rfl, fun h => absurd (fun r hr => nomatch hr) h⟩
  | some n =>
    by_cases h : s.length ≤ n
    · refine ⟨fun _ => by simp [Sink.write_str, h], fun hn => absurd (fun r hr => by cases hr; exact h) hn⟩
    · refine ⟨fun hr => absurd (hr n rfl) h, fun _ => ?_⟩
      simp only [Sink.write_str, h, if_false]
      exact ⟨trivial, [], List.nil_prefix, by simp; omega, by simp⟩

theorem Emits.seq {f g : Sink → Sink × Bool} {s t : List Char} (hf : Emits f s) (hg : Emits g t) : Emits (fun k => andThen (f k) g) (s ++ t) := by
  intro k
  by_cases hs : Spec.HasRoom k s.length
  · have e := (hf k).1 hs
    have key : Spec.HasRoom ⟨k.out ++ s, k.room.map (· - s.length)⟩ t.length ↔ Spec.HasRoom k (s ++ t).length := by
      unfold Spec.HasRoom at hs ⊢
      rw [List.length_append]
      constructor
      · intro h r hr
        have := h (r - s.length) (by rw [hr]; rfl)
        have := hs r hr
        omega
      · intro h r hr
        cases hk : k.room with
        | none => simp only [hk] at hr; cases hr
        | some n => simp only [hk, Option.map_some, Option.some.injEq] at hr; have := h n hk; omega
    refine ⟨fun h => ?_, fun h => ?_⟩
    · show andThen (f k) g = _
      rw [e]
      show g _ = _
      rw [(hg _).1 (key.2 h)]
      simp only [List.append_assoc, Option.map_map, List.length_append]
      congr 2
      cases k.room <;> simp [Nat.sub_add_eq]
    · show (andThen (f k) g).2 = false ∧ ∃ p, p <+: s ++ t ∧ p.length < (s ++ t).length ∧ (andThen (f k) g).1.out = _
      rw [e]
      obtain ⟨h1, p, h2, h3, h4⟩ := (hg _).2 (fun hh => h (key.1 hh))
      refine ⟨h1, s ++ p, (List.prefix_append_right_inj s).2 h2, by simpa using h3, ?_⟩
      show (g _).1.out = _
      rw [h4, List.append_assoc]
  · obtain ⟨h1, p, h2, h3, h4⟩ := (hf k).2 hs
    refine ⟨fun h => absurd (fun r hr => ?_) hs, fun _ => ?_⟩
    · have := h r hr; rw [List.length_append] at this; omega
    · show (andThen (f k) g).2 = false ∧ ∃ p, p <+: s ++ t ∧ p.length < (s ++ t).length ∧ (andThen (f k) g).1.out = _
      unfold andThen
      rw [if_neg (by rw [h1]; decide)]
      exact ⟨h1, p, h2.trans (List.prefix_append _ _), by rw [List.length_append]; omega, h4⟩

theorem emits_fill (c : Char) : ∀ n, Emits (fill c n) (List.replicate n c)
  | 0 => fun k => ⟨fun _ => by obtain ⟨o, r⟩ := k; cases r <;> simp [fill], fun h => absurd (fun r _ => Nat.zero_le _) h⟩
  | n + 1 => by
    have := (emits_str [c]).seq (emits_fill c n)
    exact this

theorem truncate_spec (o : Options) (s : List Char) : truncate o s <+: s ∧
    (∀ p, o.precision = some p → (truncate o s).length = min p s.length) ∧ (o.precision = none → truncate o s = s) := by
  unfold truncate
  cases o.precision with
  | none => exact ⟨List.prefix_refl _, fun p h => (by cases h), fun _ => rfl⟩
  | some p => exact ⟨List.take_prefix _ _, fun q h => (by cases h; simp), fun h => (by cases h)⟩

theorem sides_spec (o : Options) (n : Nat) : (sides o n).1 + (sides o n).2 = n ∧ ((o.align = none ∨ o.align = some .left) → (sides o n).1 = 0) ∧
    (o.align = some .right → (sides o n).2 = 0) ∧ (o.align = some .center → (sides o n).1 ≤ (sides o n).2 ∧ (sides o n).2 ≤ (sides o n).1 + 1) := by
  unfold sides
  rcases o.align with _ | _ | _ | _ <;> (simp; try omega)

theorem emits_pad (o : Options) (s : List Char) : ∃ out, Spec.Padded o s out ∧ Emits (pad o s) out := by
  obtain ⟨h1, h2, h3⟩ := truncate_spec o s
  unfold pad
  generalize truncate o s = s' at h1 h2 h3 ⊢
  cases hw : o.width with
  | none =>
    exact ⟨s', ⟨s', 0, 0, by simp, h1, h2, h3, fun _ => ⟨rfl, rfl⟩, fun w h => (by rw [hw] at h; cases h), fun _ => rfl, fun _ => rfl, fun _ => ⟨Nat.le_refl _, Nat.le_succ _⟩⟩, emits_str s'⟩
  | some w =>
    by_cases hl : w ≤ s'.length
    · refine ⟨s', ⟨s', 0, 0, by simp, h1, h2, h3, fun _ => ⟨rfl, rfl⟩, fun w' h => ?_, fun _ => rfl, fun _ => rfl, fun _ => ⟨Nat.le_refl _, Nat.le_succ _⟩⟩, ?_⟩
      · rw [hw] at h; cases h; omega
      · simp only [if_pos hl]; exact emits_str s'
    · simp only [if_neg hl]
      obtain ⟨hsum, ha, hb, hc⟩ := sides_spec o (w - s'.length)
      refine ⟨List.replicate (sides o (w - s'.length)).1 o.fill ++ (s' ++ List.replicate (sides o (w - s'.length)).2 o.fill),
        ⟨s', _, _, by rw [List.append_assoc], h1, h2, h3, fun h => (by rw [hw] at h; cases h), fun w' h => ?_, ha, hb, hc⟩,
        (emits_fill o.fill _).seq ((emits_str s').seq (emits_fill o.fill _))⟩
      rw [hw] at h; cases h
      simp only [List.length_append, List.length_replicate]; omega

theorem isText_chars {bs : List Byte} (h : ∀ c ∈ bs, c.toNat < 128) : Spec.IsText (chars bs) bs := by
  have e : ∀ n, n < 128 → (Char.ofNat n).toNat = n := by decide
  refine ⟨fun c hc => ?_, ?_⟩
  · obtain ⟨b, hb, rfl⟩ := List.mem_map.1 hc
    rw [e _ (h b hb)]; exact h b hb
  · unfold chars
    rw [List.map_map]
    refine Eq.trans (List.map_congr_left (g := id) fun b hb => ?_) (List.map_id bs)
    show BitVec.ofNat 8 (Char.ofNat b.toNat).toNat = b
    rw [e _ (h b hb), BitVec.ofNat_toNat]; rfl

end Simd
