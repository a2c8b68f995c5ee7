import Mathlib.Tactic.SplitIfs
import Verif.Lemmas.FootprintBase
import Verif.Lemmas.FootprintHex
import Verif.Model.Owned
/-
Accesses of the functions that allocate.
-/
namespace Simd

variable {α β : Type}

/-- All loads are from allocations in `L`, all stores to allocations in `W`, provided that what is allocated is in both; results satisfy `R`. -/
def UsesA (L W : Nat → Prop) (R : α → Prop) : Prog α → Prop
  | .pure a => R a
  | .err => True
  | .panic => True
  | .ub => True
  | .load p _ k => L p.buf ∧ ∀ bs, UsesA L W R (k bs)
  | .store p _ k => W p.buf ∧ UsesA L W R k
  | .chk _ k => UsesA L W R k
  | .alloc _ k => ∀ b, L b → W b → UsesA L W R (k b)

abbrev UsesA' (L W : Nat → Prop) (x : Prog α) : Prop := UsesA L W (fun _ => True) x

namespace UsesA
variable {L W : Nat → Prop} {R : α → Prop} {S : β → Prop}

unseal Uses in
theorem of {x : Prog α} (h : Uses L W R x) : UsesA L W R x := by
  induction x with
  | pure a => exact h
  | err => trivial
  | panic => trivial
  | ub => trivial
  | load p n k ih => exact ⟨h.1, fun bs => ih bs (h.2 bs)⟩
  | store p bs k ih => exact ⟨h.1, ih h.2⟩
  | chk p k ih => exact ih h
  | alloc n k ih => exact h.elim

theorem bind' {x : Prog α} {f : α → Prog β} (h : UsesA L W R x) (hf : ∀ a, R a → UsesA L W S (f a)) : UsesA L W S (Prog.bind x f) := by
  induction x with
  | pure a => exact hf a h
  | err => trivial
  | panic => trivial
  | ub => trivial
  | load p n k ih => exact ⟨h.1, fun bs => ih bs (h.2 bs)⟩
  | store p bs k ih => exact ⟨h.1, ih h.2⟩
  | chk p k ih => exact ih h
  | alloc n k ih => exact fun b h1 h2 => ih b (h b h1 h2)

theorem bind {x : Prog α} {f : α → Prog β} (h : UsesA L W R x) (hf : ∀ a, R a → UsesA L W S (f a)) : UsesA L W S (x >>= f) := bind' h hf
theorem seq {x : Prog α} {f : α → Prog β} (h : UsesA' L W x) (hf : ∀ a, UsesA L W S (f a)) : UsesA L W S (x >>= f) := bind h fun a _ => hf a
theorem use {x : Prog α} {f : α → Prog β} (h : Uses' L W x) (hf : ∀ a, UsesA L W S (f a)) : UsesA L W S (x >>= f) := bind (of h) fun a _ => hf a
theorem ret {a : α} (h : R a) : UsesA L W R (pure a : Prog α) := h
theorem ret_true {a : α} : UsesA' L W (pure a : Prog α) := trivial
theorem panic : UsesA L W R (.panic : Prog α) := trivial

theorem alloc_uninit_bytes (P n) : UsesA L W (fun s => L s.ptr.buf ∧ W s.ptr.buf) (alloc_uninit_bytes P n) := by
  unfold Simd.alloc_uninit_bytes; split
  · exact fun b h1 h2 => ⟨h1, h2⟩
  · trivial
theorem box_empty : UsesA' L W box_empty := fun _ _ _ => trivial
theorem assume_init {b : Slice} (h : L b.ptr.buf) : UsesA' L W (assume_init b) := ⟨h, fun _ => trivial⟩
theorem reserve_exact {v : RVec} (h1 : L v.buf) (h2 : W v.buf) (P extra n) : UsesA L W (fun v => L v.buf ∧ W v.buf) (RVec.reserve_exact P extra v n) := by
  unfold RVec.reserve_exact; split_ifs
  · exact ⟨h1, h2⟩
  · exact ⟨h1, fun _ b h3 h4 => ⟨h4, h3, h4⟩⟩
  · trivial
theorem set_len {v : RVec} (h : L v.buf) (n) : UsesA' L W (v.set_len n) := by
  unfold RVec.set_len; split_ifs
  · exact ⟨h, fun _ => trivial⟩
  · trivial
end UsesA

namespace Base64
variable {L W : Nat → Prop}
theorem usesA_encode_boxed {d : Slice} (hp : L d.ptr.buf) (P i config) : UsesA' L W (encode_to_boxed_str P i config d) := by
  unfold encode_to_boxed_str; split_ifs
  · exact UsesA.box_empty
  · exact .use (.liftO _) fun _ => .use (.assert _) fun _ => .bind (.alloc_uninit_bytes ..) fun s hs => .use (uses_encode_auto hp hs.2 ..) fun _ => .assume_init hs.1
theorem usesA_decode_boxed {d : Slice} (hp : L d.ptr.buf) (P i config) : UsesA' L W (decode_to_boxed_bytes P i config d) := by
  unfold decode_to_boxed_bytes; split_ifs
  · exact UsesA.box_empty
  · exact .use (uses_decoded_length hp _) fun ⟨_, _⟩ => .bind (.alloc_uninit_bytes ..) fun s hs => .use (uses_decode_auto hp hs.2 ..) fun _ => .assume_init hs.1
theorem usesA_encode_append {s : Slice} {v : RVec} (hp : L s.ptr.buf) (h1 : L v.buf) (h2 : W v.buf) (P extra i config) : UsesA' L W (encode_append P extra i config s v) := by
  unfold encode_append encode_append_vec; split_ifs
  · exact .ret_true
  · exact .use (.liftO _) fun _ => .use (.assert _) fun _ => .bind (.reserve_exact h1 h2 ..) fun s hs => .use (.padd ..) fun _ => .use (uses_encode_auto (q := ⟨s.buf, s.len⟩) hp hs.2 ..) fun _ =>
      .use (.liftO _) fun _ => .set_len hs.1 _
theorem usesA_decode_append {s : Slice} {v : RVec} (hp : L s.ptr.buf) (h1 : L v.buf) (h2 : W v.buf) (P extra i config) : UsesA' L W (decode_append P extra i config s v) := by
  unfold decode_append decode_append_vec; split_ifs
  · exact .ret_true
  · refine .use (.attempt (uses_decoded_length hp _)) fun o => ?_
    cases o with
    | none => exact .ret_true
    | some r =>
      refine .bind (.reserve_exact h1 h2 ..) fun s hs => .use (.padd ..) fun _ => .use (.attempt (uses_decode_auto (q := ⟨s.buf, s.len⟩) hp hs.2 ..)) fun o => ?_
      cases o with
      | none => exact .ret_true
      | some _ => exact .use (.liftO _) fun _ => .seq (.set_len hs.1 _) fun _ => .ret_true
theorem usesA_forgiving_to_vec {d : Slice} (hp : L d.ptr.buf) (P extra fi di) : UsesA' L W (forgiving_decode_to_vec P extra fi di d) := by
  unfold forgiving_decode_to_vec decode_to_vec vec_with_capacity
  refine .use (uses_find_non_ascii_whitespace hp ..) fun pos => .use (.assert _) fun _ => ?_
  split_ifs
  · exact .seq (usesA_decode_boxed hp ..) fun _ => .ret_true
  · refine .bind (R := fun v : RVec => L v.buf ∧ W v.buf) (fun b h1 h2 => ⟨h1, h2⟩) fun v hv => .use ?_ fun _ => .set_len hv.1 _
    have hv1 := hv.1; have hv2 := hv.2
    unfold copy_and_decode copy_nonoverlapping; uses [uses_remove_ascii_whitespace_fallback, uses_decode_inplace] []
  · trivial
end Base64

namespace Base32
variable {L W : Nat → Prop}
theorem usesA_encode_boxed {d : Slice} (hp : L d.ptr.buf) (P w i config) : UsesA' L W (encode_to_boxed_str P w i config d) := by
  unfold encode_to_boxed_str; split_ifs
  · exact UsesA.box_empty
  · exact .use (.liftO _) fun _ => .use (.assert _) fun _ => .bind (.alloc_uninit_bytes ..) fun s hs => .use (uses_encode_auto hp hs.2 ..) fun _ => .assume_init hs.1
theorem usesA_decode_boxed {d : Slice} (hp : L d.ptr.buf) (P w i config) : UsesA' L W (decode_to_boxed_bytes P w i config d) := by
  unfold decode_to_boxed_bytes; split_ifs
  · exact UsesA.box_empty
  · exact .use (uses_decoded_length hp _) fun ⟨_, _⟩ => .bind (.alloc_uninit_bytes ..) fun s hs => .use (uses_decode_auto hp hs.2 ..) fun _ => .assume_init hs.1
theorem usesA_encode_append {s : Slice} {v : RVec} (hp : L s.ptr.buf) (h1 : L v.buf) (h2 : W v.buf) (P w extra i config) : UsesA' L W (encode_append P w extra i config s v) := by
  unfold encode_append encode_append_vec; split_ifs
  · exact .ret_true
  · exact .use (.liftO _) fun _ => .use (.assert _) fun _ => .bind (.reserve_exact h1 h2 ..) fun s hs => .use (.padd ..) fun _ => .use (uses_encode_auto (q := ⟨s.buf, s.len⟩) hp hs.2 ..) fun _ =>
      .use (.liftO _) fun _ => .set_len hs.1 _
theorem usesA_decode_append {s : Slice} {v : RVec} (hp : L s.ptr.buf) (h1 : L v.buf) (h2 : W v.buf) (P w extra i config) : UsesA' L W (decode_append P w extra i config s v) := by
  unfold decode_append decode_append_vec; split_ifs
  · exact .ret_true
  · refine .use (.attempt (uses_decoded_length hp _)) fun o => ?_
    cases o with
    | none => exact .ret_true
    | some r =>
      refine .bind (.reserve_exact h1 h2 ..) fun s hs => .use (.padd ..) fun _ => .use (.attempt (uses_decode_auto (q := ⟨s.buf, s.len⟩) hp hs.2 ..)) fun o => ?_
      cases o with
      | none => exact .ret_true
      | some _ => exact .use (.liftO _) fun _ => .seq (.set_len hs.1 _) fun _ => .ret_true
end Base32

namespace Hex
variable {L W : Nat → Prop}
theorem usesA_encode_boxed {d : Slice} (hp : L d.ptr.buf) (P i c) : UsesA' L W (encode_to_boxed_str P i d c) := by
  unfold encode_to_boxed_str; split_ifs
  · exact UsesA.box_empty
  · exact .use (.liftO _) fun _ => .use (.assert _) fun _ => .bind (.alloc_uninit_bytes ..) fun s hs => .use (uses_encode_auto hp hs.2 ..) fun _ => .assume_init hs.1
theorem usesA_decode_boxed {d : Slice} (hp : L d.ptr.buf) (P i) : UsesA' L W (decode_to_boxed_bytes P i d) := by
  unfold decode_to_boxed_bytes; split_ifs
  · exact UsesA.box_empty
  · exact .use (.ensure _) fun _ => .bind (.alloc_uninit_bytes ..) fun s hs => .use (uses_decode_auto hp hs.2 ..) fun _ => .assume_init hs.1
theorem usesA_encode_append {s : Slice} {v : RVec} (hp : L s.ptr.buf) (h1 : L v.buf) (h2 : W v.buf) (P extra i c) : UsesA' L W (encode_append P extra i s v c) := by
  unfold encode_append encode_append_vec; split_ifs
  · exact .ret_true
  · exact .use (.liftO _) fun _ => .use (.assert _) fun _ => .bind (.reserve_exact h1 h2 ..) fun s hs => .use (.padd ..) fun _ => .use (uses_encode_auto (q := ⟨s.buf, s.len⟩) hp hs.2 ..) fun _ =>
      .use (.liftO _) fun _ => .set_len hs.1 _
theorem usesA_decode_append {s : Slice} {v : RVec} (hp : L s.ptr.buf) (h1 : L v.buf) (h2 : W v.buf) (P extra i) : UsesA' L W (decode_append P extra i s v) := by
  unfold decode_append decode_append_vec; split_ifs
  · exact .ret_true
  · refine .bind (.reserve_exact h1 h2 ..) fun s hs => .use (.padd ..) fun _ => .use (.attempt (uses_decode_auto (q := ⟨s.buf, s.len⟩) hp hs.2 ..)) fun o => ?_
    cases o with
    | none => exact .ret_true
    | some _ => exact .use (.liftO _) fun _ => .seq (.set_len hs.1 _) fun _ => .ret_true
  · exact .ret_true
end Hex

/-- A program that runs in the memory `μ` makes the same accesses in every memory that contains `μ`; what it loads from allocations to which it never stores was initialised in `μ`. -/
theorem trace_inA {L W : Nat → Prop} {R : α → Prop} {x : Prog α} {μ M : Mem} (hs : UsesA L W R x) (hL : ∀ b, μ.nbuf ≤ b → L b) (hW : ∀ b, μ.nbuf ≤ b → W b)
    (hm : Sub μ M) (hn : M.nbuf = μ.nbuf) (h : x.run μ ≠ .ub) :
    ∀ a ∈ x.trace M, match a with
      | .load r k => L r.buf ∧ (¬ W r.buf → ∀ i, i < k → μ.cell r.buf (r.off + i) ≠ none)
      | .store r _ => W r.buf := by
  induction x generalizing μ M with
  | pure a => intro a ha; cases ha
  | err => intro a ha; cases ha
  | panic => intro a ha; cases ha
  | ub => intro a ha; cases ha
  | load p n k ih =>
    simp only [Prog.run] at h
    cases hr : μ.read p n with
    | none => rw [hr] at h; exact absurd rfl h
    | some bs =>
      rw [hr] at h
      intro a ha
      simp only [Prog.trace, hm.read hr, List.mem_cons] at ha
      rcases ha with rfl | ha
      · exact ⟨hs.1, fun _ i hi => read_cells hr _ (by omega) (by omega)⟩
      · exact ih bs (hs.2 bs) hL hW hm hn h a ha
  | store p bs k ih =>
    simp only [Prog.run] at h
    split at h
    · rename_i hb
      intro a ha
      simp only [Prog.trace] at ha
      rw [if_pos (Nat.le_trans hb (hm.size _))] at ha
      simp only [List.mem_cons] at ha
      rcases ha with rfl | ha
      · exact hs.1
      · have := ih (μ := μ.write p bs) (M := M.write p bs) hs.2 hL hW (hm.write p bs) hn h a ha
        cases a with
        | load r l =>
          refine ⟨this.1, fun hr i hi => ?_⟩
          have h' := this.2 hr i hi
          rwa [Mem.write_cell_out (.inl fun (h1 : r.buf = p.buf) => hr (h1 ▸ hs.1))] at h'
        | store r l => exact this
    · exact absurd rfl h
  | chk p k ih =>
    simp only [Prog.run] at h
    split at h
    · rename_i hb
      intro a ha
      simp only [Prog.trace] at ha
      rw [if_pos (Nat.le_trans hb (hm.size _))] at ha
      exact ih hs hL hW hm hn h a ha
    · exact absurd rfl h
  | alloc n k ih =>
    simp only [Prog.run] at h
    intro a ha
    simp only [Prog.trace] at ha
    rw [hn] at ha
    have := ih μ.nbuf (hs μ.nbuf (hL _ (Nat.le_refl _)) (hW _ (Nat.le_refl _))) (fun b hb => hL b (Nat.le_of_succ_le hb)) (fun b hb => hW b (Nat.le_of_succ_le hb))
      (M := M.alloc n) ⟨fun b => ?_, fun b i v hv => ?_⟩ (by show M.nbuf + 1 = μ.nbuf + 1; rw [hn]) h a ha
    · cases a with
      | load r l =>
        refine ⟨this.1, fun hr i hi => ?_⟩
        have h' := this.2 hr i hi
        have : r.buf ≠ μ.nbuf := fun e => hr (hW _ (e ▸ Nat.le_refl _))
        simp only [Mem.alloc] at h'
        rwa [if_neg this] at h'
      | store r l => exact this
    · simp only [Mem.alloc, hn]
      split
      · exact Nat.le_refl _
      · exact hm.size b
    · simp only [Mem.alloc, hn] at hv ⊢
      split at hv
      · cases hv
      · rename_i hb; rw [if_neg hb]; exact hm.cell b i v hv

/-- The memory in which nothing but the `n` bytes at `p` is initialised in the allocation of `p`. -/
def Mem.mask (m : Mem) (p : Ptr) (n : Nat) : Mem :=
  { m with cell := fun b i => if b = p.buf ∧ ¬ (p.off ≤ i ∧ i < p.off + n) then none else m.cell b i }

theorem Mem.mask_sub (m : Mem) (p : Ptr) (n : Nat) : Sub (m.mask p n) m where
  size := fun _ => Nat.le_refl _
  cell := fun b i v h => by
    simp only [Mem.mask] at h
    split at h
    · cases h
    · exact h

theorem Mem.mask_reads {m : Mem} {p : Ptr} {xs : List Byte} (h : Spec.Reads m p xs) : Spec.Reads (m.mask p xs.length) p xs :=
  ⟨h.1, fun i hi => by
    simp only [Mem.mask]
    rw [if_neg (by omega), h.2 i hi]⟩

theorem Mem.mask_vec {m : Mem} {p : Ptr} {n : Nat} {v : RVec} {xs : List Byte} (h : Spec.IsVec m v xs) (hne : p.buf ≠ v.buf) : Spec.IsVec (m.mask p n) v xs :=
  ⟨h.1, h.2.1, h.2.2.1, h.2.2.2.1, fun i hi => by
    simp only [Mem.mask]
    rw [if_neg (fun e => hne e.1.symm)]
    exact h.2.2.2.2 i hi⟩

end Simd
