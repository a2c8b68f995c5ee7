/-
Well-formed UTF-8 (The Unicode Standard, table 3-7). Independent of the model.
-/
namespace Simd.Spec

/-- One well-formed UTF-8 byte sequence. -/
def utf8Seq : List (BitVec 8) → Bool
  | [a] => a.toNat < 0x80
  | [a, b] => 0xc2 ≤ a.toNat && a.toNat ≤ 0xdf && cont b
  | [a, b, c] =>
    ((a.toNat == 0xe0 && 0xa0 ≤ b.toNat && b.toNat ≤ 0xbf) ||
     (0xe1 ≤ a.toNat && a.toNat ≤ 0xec && cont b) ||
     (a.toNat == 0xed && 0x80 ≤ b.toNat && b.toNat ≤ 0x9f) ||
     (0xee ≤ a.toNat && a.toNat ≤ 0xef && cont b)) && cont c
  | [a, b, c, d] =>
    ((a.toNat == 0xf0 && 0x90 ≤ b.toNat && b.toNat ≤ 0xbf) ||
     (0xf1 ≤ a.toNat && a.toNat ≤ 0xf3 && cont b) ||
     (a.toNat == 0xf4 && 0x80 ≤ b.toNat && b.toNat ≤ 0x8f)) && cont c && cont d
  | _ => false
where
  /-- A continuation byte. -/
  cont (b : BitVec 8) : Bool := 0x80 ≤ b.toNat && b.toNat ≤ 0xbf

/-- A concatenation of well-formed sequences. -/
def ValidUtf8 (bs : List (BitVec 8)) : Prop :=
  ∃ seqs : List (List (BitVec 8)), (∀ s ∈ seqs, utf8Seq s = true) ∧ bs = seqs.flatten

theorem ValidUtf8.append {xs ys : List (BitVec 8)} : ValidUtf8 xs → ValidUtf8 ys → ValidUtf8 (xs ++ ys) := by
  rintro ⟨s, hs, rfl⟩ ⟨t, ht, rfl⟩
  refine ⟨s ++ t, ?_, by simp⟩
  intro x hx
  rcases List.mem_append.1 hx with h | h
  · exact hs x h
  · exact ht x h

theorem ValidUtf8.ascii {xs : List (BitVec 8)} (h : ∀ c ∈ xs, c.toNat < 0x80) : ValidUtf8 xs := by
  refine ⟨xs.map fun c => [c], ?_, ?_⟩
  · intro s hs
    obtain ⟨c, hc, rfl⟩ := List.mem_map.1 hs
    simpa [utf8Seq] using h c hc
  · induction xs with
    | nil => rfl
    | cons a r ih => simp [← ih fun c hc => h c (List.mem_cons_of_mem _ hc)]

end Simd.Spec
