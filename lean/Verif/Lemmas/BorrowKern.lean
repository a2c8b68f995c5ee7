import Verif.Lemmas.BorrowStrip
import Verif.Lemmas.BorrowFns2
/-
The loops of the functions that allocate run well with any tags.
-/
namespace Simd
open Spec Borrow

theorem Spec.Reads.alloc {m : Mem} {p : Ptr} {xs : List Byte} (h : Reads m p xs) (hp : p.buf < m.nbuf) (k : Nat) : Reads (m.alloc k) p xs := by
  have hne : p.buf ≠ m.nbuf := by omega
  refine ⟨?_, fun i hi => ?_⟩
  · show _ ≤ if p.buf = m.nbuf then k else m.size p.buf
    rw [if_neg hne]; exact h.1
  · show (if p.buf = m.nbuf then none else m.cell p.buf (p.off + i)) = _
    rw [if_neg hne]; exact h.2 i hi

theorem writable_alloc (m : Mem) (k : Nat) : Writable (m.alloc k) ⟨m.nbuf, 0⟩ k := by
  show 0 + k ≤ if m.nbuf = m.nbuf then k else m.size m.nbuf
  rw [if_pos rfl]; omega

variable {xs : List Byte} {n d k : Nat} {M : Mem} {P Q : Ptr}

namespace Base64

theorem fine_decode {i : Option Isa} (hi : i ≠ some .sse2) (config : Config) {m : Mem} {p q : Ptr} (hr : Reads m p xs) (hw : Writable m q d) (ho : NoOverlap p xs.length q d) :
    Fine (decode i config ⟨p, xs.length⟩ ⟨q, d⟩) m p xs.length q d := by
  have key : ∀ m p q, Reads m p xs → Writable m q d → NoOverlap p xs.length q d →
      ∃ m', ((∃ a, (decode i config ⟨p, xs.length⟩ ⟨q, d⟩).run m = .ok a m') ∨ (decode i config ⟨p, xs.length⟩ ⟨q, d⟩).run m = .err m') ∧
        ∀ b o, (∀ i, i < d → ¬ (b = q.buf ∧ o = q.off + i)) → m'.cell b o = m.cell b o := by
    intro m p q hr hw ho
    cases hy : (decApi hi config).full xs with
    | none =>
      obtain ⟨m', h1, h2⟩ := (decApi hi config).decode_any_err hr hw ho hy
      exact ⟨m', .inr h1, h2.2.2.2⟩
    | some ys =>
      by_cases h : ys.length ≤ d
      · obtain ⟨m', h1, h2⟩ := (decApi hi config).decode_any_ok hr hw ho hy h
        exact ⟨m', .inl ⟨_, h1⟩, fun b o hb => h2.2.2.2 b o fun i hi => hb i (by omega)⟩
      · exact ⟨m, .inr ((decApi hi config).decode_any_short hr hy (by omega)), fun _ _ _ => rfl⟩
  have hsafe : ∀ m p q, Reads m p xs → Writable m q d → NoOverlap p xs.length q d → (decode i config ⟨p, xs.length⟩ ⟨q, d⟩).run m ≠ .ub := by
    intro m p q hr hw ho
    obtain ⟨m', ⟨a, h⟩ | h, -⟩ := key m p q hr hw ho <;> rw [h] <;> nofun
  refine ⟨uses_decode trivial trivial .., hsafe m p q hr hw ho, Spec.Confined.inside ?_ (Nat.le_refl _)⟩
  refine confined_any (fun p q => decode i config ⟨p, xs.length⟩ ⟨q, d⟩) (fun _ _ _ => ren_decode ..) (fun _ _ => uses_decode trivial trivial ..) hsafe (fun m p q h hr hw => ?_) (Nat.le_refl _) hr hw ho
  obtain ⟨m', h1, h2⟩ := key _ p q (Mem.keep_reads hr) hw (noOverlap_of_ne h _ _)
  exact confined h (uses_decode (L := (· = p.buf)) (W := (· = q.buf)) (src := ⟨p, _⟩) (dst := ⟨q, d⟩) rfl rfl i config) h1 h2

theorem kern_encode (Pl : Plat) (i : Option Isa) (config : Config) (hl : xs.length = n)
    (hF : ∀ m p q, Reads m p xs → Writable m q d → NoOverlap p n q d → Fine (encode Pl i config ⟨p, n⟩ ⟨q, d⟩) m p n q d) (hd : encoded_length_unchecked Pl n config = some d)
    (hr : Reads M P xs) (hw : Writable M Q d) (ho : NoOverlap P n Q d) : Good2 (fun p q => encode_auto i p n q config) P n Q d M := by
  have h1 := Good2.next (X := fun _ _ => liftO (encoded_length_unchecked Pl n config)) (K := fun p q m => do ensure (d ≥ m); encode_auto i p n q config; return (⟨q, m⟩ : Slice)) (good2_of hl hF hr hw ho) ho
    (fun _ _ _ => Ren.liftO _) (v := d) (M' := M) (by rw [hd]; rfl)
  have h2 := Good2.next (X := fun _ _ => ensure (d ≥ d)) (K := fun p q _ => do encode_auto i p n q config; return (⟨q, d⟩ : Slice)) h1 ho (fun _ _ _ => Ren.ensure _) (v := ()) (M' := M)
    (by rw [decide_eq_true (Nat.le_refl d)]; rfl)
  exact Good2.head h2

theorem kern_decode {i : Option Isa} (hi : i ≠ some .sse2) (config : Config) (hl : xs.length = n) (hd : (decoded_length ⟨P, n⟩ config).run M = .ok (k, d) M)
    (hr : Reads M P xs) (hw : Writable M Q d) (ho : NoOverlap P n Q d) : Good2 (fun p q => decode_auto i p q k config) P n Q d M := by
  subst hl
  have h1 := Good2.next (X := fun p _ => decoded_length ⟨p, xs.length⟩ config) (K := fun p q x => do ensure (d ≥ x.2); decode_auto i p q x.1 config; return (⟨q, x.2⟩ : Slice))
    (good2_of rfl (fun m p q hr hw ho => fine_decode hi config hr hw ho) hr hw ho) ho (fun _ _ _ => ren_decoded_length ..) hd
  have h2 := Good2.next (X := fun _ _ => ensure (d ≥ d)) (K := fun p q _ => do decode_auto i p q k config; return (⟨q, d⟩ : Slice)) h1 ho (fun _ _ _ => Ren.ensure _) (v := ()) (M' := M)
    (by rw [decide_eq_true (Nat.le_refl d)]; rfl)
  exact Good2.head h2

/-- The length of the result depends on the text only. -/
theorem decoded_length_move (config : Config) (hl : xs.length = n) {M' : Mem} {P' : Ptr} {m' : Mem} {r : Nat × Nat} (hr : Reads M P xs) (hr' : Reads M' P' xs)
    (h : (decoded_length ⟨P, n⟩ config).run M = .ok r m') : (decoded_length ⟨P', n⟩ config).run M' = .ok r M' := by
  subst hl
  rw [decoded_length_run config M P xs hr.has] at h
  rw [decoded_length_run config M' P' xs hr'.has]
  cases hx : dlen config.extra xs <;> rw [hx] at h <;> cases h
  rfl

theorem good_length {i : Option Isa} (hi : i ≠ some .sse2) (config : Config) (hl : xs.length = n) (hr : Reads M P xs) : Good1 (fun p => decoded_length ⟨p, n⟩ config) P n M := by
  subst hl
  exact Good1.head (X := fun p => decoded_length ⟨p, xs.length⟩ config) (K := fun p x => do ensure (0 ≥ x.2); decode_auto i p ⟨0, 0⟩ x.1 config; return (⟨⟨0, 0⟩, x.2⟩ : Slice))
    (good1_of (fun m p hr => ⟨p, ⟨0, 0⟩, .inr (fine_decode hi config (d := 0) hr (Nat.zero_le _) fun _ _ _ h => absurd h (Nat.not_lt_zero _))⟩) hr)

end Base64

namespace Base32

theorem fine_decode (w : Bool) {i : Option Isa} (hi : Impl i) (config : Config) {m : Mem} {p q : Ptr} (hr : Reads m p xs) (hw : Writable m q d) (ho : NoOverlap p xs.length q d) :
    Fine (decode w i config ⟨p, xs.length⟩ ⟨q, d⟩) m p xs.length q d := by
  have key : ∀ m p q, Reads m p xs → Writable m q d → NoOverlap p xs.length q d →
      ∃ m', ((∃ a, (decode w i config ⟨p, xs.length⟩ ⟨q, d⟩).run m = .ok a m') ∨ (decode w i config ⟨p, xs.length⟩ ⟨q, d⟩).run m = .err m') ∧
        ∀ b o, (∀ i, i < d → ¬ (b = q.buf ∧ o = q.off + i)) → m'.cell b o = m.cell b o := by
    intro m p q hr hw ho
    cases hy : (decApi w hi (j := none) (by simp) config).full xs with
    | none =>
      obtain ⟨m', h1, h2⟩ := (decApi w hi (j := none) (by simp) config).decode_any_err hr hw ho hy
      exact ⟨m', .inr h1, h2.2.2.2⟩
    | some ys =>
      by_cases h : ys.length ≤ d
      · obtain ⟨m', h1, h2⟩ := (decApi w hi (j := none) (by simp) config).decode_any_ok hr hw ho hy h
        exact ⟨m', .inl ⟨_, h1⟩, fun b o hb => h2.2.2.2 b o fun i hi => hb i (by omega)⟩
      · exact ⟨m, .inr ((decApi w hi (j := none) (by simp) config).decode_any_short hr hy (by omega)), fun _ _ _ => rfl⟩
  have hsafe : ∀ m p q, Reads m p xs → Writable m q d → NoOverlap p xs.length q d → (decode w i config ⟨p, xs.length⟩ ⟨q, d⟩).run m ≠ .ub := by
    intro m p q hr hw ho
    obtain ⟨m', ⟨a, h⟩ | h, -⟩ := key m p q hr hw ho <;> rw [h] <;> nofun
  refine ⟨uses_decode trivial trivial .., hsafe m p q hr hw ho, Spec.Confined.inside ?_ (Nat.le_refl _)⟩
  refine confined_any (fun p q => decode w i config ⟨p, xs.length⟩ ⟨q, d⟩) (fun _ _ _ => ren_decode ..) (fun _ _ => uses_decode trivial trivial ..) hsafe (fun m p q h hr hw => ?_) (Nat.le_refl _) hr hw ho
  obtain ⟨m', h1, h2⟩ := key _ p q (Mem.keep_reads hr) hw (noOverlap_of_ne h _ _)
  exact confined h (uses_decode (L := (· = p.buf)) (W := (· = q.buf)) (src := ⟨p, _⟩) (dst := ⟨q, d⟩) rfl rfl w i config) h1 h2

theorem kern_encode (Pl : Plat) (w : Bool) (i : Option Isa) (config : Config) (hl : xs.length = n)
    (hF : ∀ m p q, Reads m p xs → Writable m q d → NoOverlap p n q d → Fine (encode Pl w i config ⟨p, n⟩ ⟨q, d⟩) m p n q d) (hd : encoded_length_unchecked Pl n config.padding = some d)
    (hr : Reads M P xs) (hw : Writable M Q d) (ho : NoOverlap P n Q d) : Good2 (fun p q => encode_auto w i p n q config.kind config.padding) P n Q d M := by
  have h1 := Good2.next (X := fun _ _ => liftO (encoded_length_unchecked Pl n config.padding)) (K := fun p q m => do ensure (d ≥ m); encode_auto w i p n q config.kind config.padding; return (⟨q, m⟩ : Slice)) (good2_of hl hF hr hw ho) ho
    (fun _ _ _ => Ren.liftO _) (v := d) (M' := M) (by rw [hd]; rfl)
  have h2 := Good2.next (X := fun _ _ => ensure (d ≥ d)) (K := fun p q _ => do encode_auto w i p n q config.kind config.padding; return (⟨q, d⟩ : Slice)) h1 ho (fun _ _ _ => Ren.ensure _) (v := ()) (M' := M)
    (by rw [decide_eq_true (Nat.le_refl d)]; rfl)
  exact Good2.head h2

theorem kern_decode (w : Bool) {i : Option Isa} (hi : Impl i) (config : Config) (hl : xs.length = n) (hd : (decoded_length ⟨P, n⟩ config.padding).run M = .ok (k, d) M)
    (hr : Reads M P xs) (hw : Writable M Q d) (ho : NoOverlap P n Q d) : Good2 (fun p q => decode_auto w i p k q config.kind) P n Q d M := by
  subst hl
  have h1 := Good2.next (X := fun p _ => decoded_length ⟨p, xs.length⟩ config.padding) (K := fun p q x => do ensure (d ≥ x.2); decode_auto w i p x.1 q config.kind; return (⟨q, x.2⟩ : Slice))
    (good2_of rfl (fun m p q hr hw ho => fine_decode w hi config hr hw ho) hr hw ho) ho (fun _ _ _ => ren_decoded_length ..) hd
  have h2 := Good2.next (X := fun _ _ => ensure (d ≥ d)) (K := fun p q _ => do decode_auto w i p k q config.kind; return (⟨q, d⟩ : Slice)) h1 ho (fun _ _ _ => Ren.ensure _) (v := ()) (M' := M)
    (by rw [decide_eq_true (Nat.le_refl d)]; rfl)
  exact Good2.head h2

/-- The length of the result depends on the text only. -/
theorem decoded_length_move (pad : Bool) (hl : xs.length = n) {M' : Mem} {P' : Ptr} {m' : Mem} {r : Nat × Nat} (hr : Reads M P xs) (hr' : Reads M' P' xs)
    (h : (decoded_length ⟨P, n⟩ pad).run M = .ok r m') : (decoded_length ⟨P', n⟩ pad).run M' = .ok r M' := by
  subst hl
  rw [decoded_length_run pad M P xs hr.has] at h
  rw [decoded_length_run pad M' P' xs hr'.has]
  cases hx : dlen pad xs <;> rw [hx] at h <;> cases h
  rfl

theorem good_length (w : Bool) {i : Option Isa} (hi : Impl i) (config : Config) (hl : xs.length = n) (hr : Reads M P xs) : Good1 (fun p => decoded_length ⟨p, n⟩ config.padding) P n M := by
  subst hl
  exact Good1.head (X := fun p => decoded_length ⟨p, xs.length⟩ config.padding) (K := fun p x => do ensure (0 ≥ x.2); decode_auto w i p x.1 ⟨0, 0⟩ config.kind; return (⟨⟨0, 0⟩, x.2⟩ : Slice))
    (good1_of (fun m p hr => ⟨p, ⟨0, 0⟩, .inr (fine_decode w hi config (d := 0) hr (Nat.zero_le _) fun _ _ _ h => absurd h (Nat.not_lt_zero _))⟩) hr)

end Base32

namespace Hex

theorem kern_encode (Pl : Plat) (i : Option Isa) (case : AsciiCase) (hl : xs.length = n)
    (hF : ∀ m p q, Reads m p xs → Writable m q d → NoOverlap p n q d → Fine (encode Pl i ⟨p, n⟩ ⟨q, d⟩ case) m p n q d) (hd : d / 2 ≥ n)
    (hr : Reads M P xs) (hw : Writable M Q d) (ho : NoOverlap P n Q d) : Good2 (fun p q => encode_auto i p n q case) P n Q d M := by
  have h2 := Good2.next (X := fun _ _ => ensure (d / 2 ≥ n)) (K := fun p q _ => do encode_auto i p n q case; return (⟨q, ← liftO (Pl.mulU n 2)⟩ : Slice)) (good2_of hl hF hr hw ho) ho (fun _ _ _ => Ren.ensure _)
    (v := ()) (M' := M) (by rw [decide_eq_true hd]; rfl)
  exact Good2.head h2

theorem kern_decode (i : Option Isa) (hl : xs.length = n)
    (hF : ∀ m p q, Reads m p xs → Writable m q (n / 2) → NoOverlap p n q (n / 2) → Fine (decode i ⟨p, n⟩ ⟨q, n / 2⟩) m p n q (n / 2)) (he : (n % 2 == 0) = true)
    (hr : Reads M P xs) (hw : Writable M Q (n / 2)) (ho : NoOverlap P n Q (n / 2)) : Good2 (fun p q => decode_auto i p n q) P n Q (n / 2) M := by
  have h2 := Good2.next (X := fun _ _ => ensure (n % 2 == 0 && decide (n / 2 ≥ n / 2))) (K := fun p q _ => do decode_auto i p n q; return (⟨q, n / 2⟩ : Slice)) (good2_of hl hF hr hw ho) ho (fun _ _ _ => Ren.ensure _)
    (v := ()) (M' := M) (by rw [he, decide_eq_true (Nat.le_refl _)]; rfl)
  exact Good2.head h2

end Hex

end Simd
