import Verif.Lemmas.RenBase
import Verif.Lemmas.RenHex
import Verif.Model.Owned
/-
`Ren` for the functions that allocate.
-/
namespace Simd

variable {ρ : Nat → Nat}

abbrev RelV (ρ : Nat → Nat) (v v' : RVec) : Prop := v' = ⟨ρ v.buf, v.len, v.cap⟩
abbrev RelVE (ρ : Nat → Nat) (r r' : RVec × Except Unit Unit) : Prop := r' = (⟨ρ r.1.buf, r.1.len, r.1.cap⟩, r.2)

namespace Ren
unseal Ren in
theorem alloc {α : Type} {Q : α → α → Prop} {n : Nat} {k k' : Nat → Prog α} (h : ∀ b, Ren ρ Q (k b) (k' (ρ b))) : Ren ρ Q (.alloc n k) (.alloc n k') := ⟨rfl, h⟩
theorem alloc_uninit_bytes (P n) : Ren ρ (RelS ρ) (alloc_uninit_bytes P n) (alloc_uninit_bytes P n) := by
  unfold Simd.alloc_uninit_bytes
  split
  · exact alloc fun b => ret rfl
  · exact ub_l
theorem box_empty : Ren ρ (RelS ρ) box_empty box_empty := alloc fun _ => ret rfl
theorem assume_init (b o n : Nat) : Ren ρ (RelS ρ) (assume_init ⟨⟨b, o⟩, n⟩) (assume_init ⟨⟨ρ b, o⟩, n⟩) := by
  unfold Simd.assume_init; ren [] []
theorem reserve_exact (P extra) (b l c : Nat) (n) : Ren ρ (RelV ρ) (RVec.reserve_exact P extra ⟨b, l, c⟩ n) (RVec.reserve_exact P extra ⟨ρ b, l, c⟩ n) := by
  unfold RVec.reserve_exact
  dsimp only
  split_ifs
  · exact ret rfl
  · refine seq (loadBytes _ _ _) fun _ => alloc fun b => ?_
    ren [] []
  · exact panic
theorem set_len (b l c : Nat) (n) : Ren ρ (RelV ρ) (RVec.set_len ⟨b, l, c⟩ n) (RVec.set_len ⟨ρ b, l, c⟩ n) := by
  unfold RVec.set_len
  dsimp only
  split_ifs
  · ren [] []
  · exact ub_l
end Ren

/-- Follows the text of two programs that allocate. -/
syntax "renh" "[" term,* "]" : tactic
macro_rules
  | `(tactic| renh [$ts,*]) => do
    let alts ← ts.getElems.mapM fun t => `(Lean.Parser.Tactic.tacticSeq| (with_reducible apply $t))
    let rv ← #[``Ren.reserve_exact, ``Ren.set_len].mapM fun n => `(Lean.Parser.Tactic.tacticSeq|
      ((with_reducible apply Ren.bind); (with_reducible apply $(Lean.mkIdent n)); (refine fun (r : RVec) r' h => ?_; obtain ⟨_, _, _⟩ := r; obtain ⟨⟩ := h)))
    let rs ← `(Lean.Parser.Tactic.tacticSeq|
      ((with_reducible apply Ren.bind); (with_reducible apply Ren.alloc_uninit_bytes); (refine fun (r : Slice) r' h => ?_; obtain ⟨⟨_, _⟩, _⟩ := r; obtain ⟨⟩ := h)))
    let pre ← #[``Ren.padd, ``Ren.err, ``Ren.panic, ``Ren.liftO, ``Ren.ensure, ``Ren.assert, ``Ren.box_empty, ``Ren.assume_init, ``Ren.set_len, ``Ren.reserve_exact].mapM
        fun n => `(Lean.Parser.Tactic.tacticSeq| (with_reducible apply $(Lean.mkIdent n)))
    let post : Array (Lean.TSyntax ``Lean.Parser.Tactic.tacticSeq) := #[
      ← `(Lean.Parser.Tactic.tacticSeq| ((with_reducible apply Ren.ret); rfl)),
      ← `(Lean.Parser.Tactic.tacticSeq| (with_reducible refine Ren.seq (Ren.attempt ?_) fun _ => ?_)),
      ← `(Lean.Parser.Tactic.tacticSeq| (with_reducible refine Ren.seq ?_ fun _ => ?_)),
      ← `(Lean.Parser.Tactic.tacticSeq| dsimp only), ← `(Lean.Parser.Tactic.tacticSeq| split)]
    let all := #[rs] ++ rv ++ alts ++ pre ++ post
    `(tactic| repeat' first $[| $all]*)

namespace Base64
theorem ren_encode_to_boxed_str (P i config) (b o n : Nat) :
    Ren ρ (RelS ρ) (encode_to_boxed_str P i config ⟨⟨b, o⟩, n⟩) (encode_to_boxed_str P i config ⟨⟨ρ b, o⟩, n⟩) := by
  unfold encode_to_boxed_str; renh [ren_encode_auto]
theorem ren_decode_to_boxed_bytes (P i config) (b o n : Nat) :
    Ren ρ (RelS ρ) (decode_to_boxed_bytes P i config ⟨⟨b, o⟩, n⟩) (decode_to_boxed_bytes P i config ⟨⟨ρ b, o⟩, n⟩) := by
  unfold decode_to_boxed_bytes; renh [ren_decoded_length, ren_decode_auto]
theorem ren_encode_append (P extra i config) (b o n vb vl vc : Nat) :
    Ren ρ (RelV ρ) (encode_append P extra i config ⟨⟨b, o⟩, n⟩ ⟨vb, vl, vc⟩) (encode_append P extra i config ⟨⟨ρ b, o⟩, n⟩ ⟨ρ vb, vl, vc⟩) := by
  unfold encode_append encode_append_vec; renh [ren_encode_auto]
theorem ren_decode_append (P extra i config) (b o n vb vl vc : Nat) :
    Ren ρ (RelVE ρ) (decode_append P extra i config ⟨⟨b, o⟩, n⟩ ⟨vb, vl, vc⟩) (decode_append P extra i config ⟨⟨ρ b, o⟩, n⟩ ⟨ρ vb, vl, vc⟩) := by
  unfold decode_append decode_append_vec; renh [ren_decoded_length, ren_decode_auto]
theorem ren_copy_and_decode (di) (b o n : Nat) (pos) (qb qo : Nat) :
    Ren ρ (RelS ρ) (copy_and_decode di ⟨⟨b, o⟩, n⟩ pos ⟨qb, qo⟩) (copy_and_decode di ⟨⟨ρ b, o⟩, n⟩ pos ⟨ρ qb, qo⟩) := by
  unfold copy_and_decode
  ren [ren_copy_nonoverlapping, ren_remove_ascii_whitespace_fallback, ren_decode_inplace] []
theorem ren_forgiving_decode_to_vec (P extra fi di) (b o n : Nat) :
    Ren ρ (RelV ρ) (forgiving_decode_to_vec P extra fi di ⟨⟨b, o⟩, n⟩) (forgiving_decode_to_vec P extra fi di ⟨⟨ρ b, o⟩, n⟩) := by
  unfold forgiving_decode_to_vec decode_to_vec
  refine Ren.seq (ren_find_non_ascii_whitespace ..) fun pos => Ren.seq (Ren.assert _) fun _ => ?_
  dsimp only
  split_ifs
  · refine Ren.bind (ren_decode_to_boxed_bytes ..) fun (s : Slice) s' h => ?_
    subst h
    exact Ren.ret rfl
  · unfold vec_with_capacity
    split_ifs
    · refine Ren.bind (R := RelV ρ) (Ren.alloc fun b => Ren.ret rfl) fun (v : RVec) v' h => ?_
      subst h
      refine Ren.bind (ren_copy_and_decode ..) fun (s : Slice) s' h => ?_
      subst h
      exact Ren.set_len ..
    · exact (Ren.panic : Ren ρ (RelV ρ) (.panic : Prog RVec) .panic)
end Base64

namespace Base32
theorem ren_encode_to_boxed_str (P w i config) (b o n : Nat) :
    Ren ρ (RelS ρ) (encode_to_boxed_str P w i config ⟨⟨b, o⟩, n⟩) (encode_to_boxed_str P w i config ⟨⟨ρ b, o⟩, n⟩) := by
  unfold encode_to_boxed_str; renh [ren_encode_auto]
theorem ren_decode_to_boxed_bytes (P w i config) (b o n : Nat) :
    Ren ρ (RelS ρ) (decode_to_boxed_bytes P w i config ⟨⟨b, o⟩, n⟩) (decode_to_boxed_bytes P w i config ⟨⟨ρ b, o⟩, n⟩) := by
  unfold decode_to_boxed_bytes; renh [ren_decoded_length, ren_decode_auto]
theorem ren_encode_append (P w extra i config) (b o n vb vl vc : Nat) :
    Ren ρ (RelV ρ) (encode_append P w extra i config ⟨⟨b, o⟩, n⟩ ⟨vb, vl, vc⟩) (encode_append P w extra i config ⟨⟨ρ b, o⟩, n⟩ ⟨ρ vb, vl, vc⟩) := by
  unfold encode_append encode_append_vec; renh [ren_encode_auto]
theorem ren_decode_append (P w extra i config) (b o n vb vl vc : Nat) :
    Ren ρ (RelVE ρ) (decode_append P w extra i config ⟨⟨b, o⟩, n⟩ ⟨vb, vl, vc⟩) (decode_append P w extra i config ⟨⟨ρ b, o⟩, n⟩ ⟨ρ vb, vl, vc⟩) := by
  unfold decode_append decode_append_vec; renh [ren_decoded_length, ren_decode_auto]
end Base32

namespace Hex
theorem ren_encode_to_boxed_str (P i c) (b o n : Nat) :
    Ren ρ (RelS ρ) (encode_to_boxed_str P i ⟨⟨b, o⟩, n⟩ c) (encode_to_boxed_str P i ⟨⟨ρ b, o⟩, n⟩ c) := by
  unfold encode_to_boxed_str; renh [ren_encode_auto]
theorem ren_decode_to_boxed_bytes (P i) (b o n : Nat) :
    Ren ρ (RelS ρ) (decode_to_boxed_bytes P i ⟨⟨b, o⟩, n⟩) (decode_to_boxed_bytes P i ⟨⟨ρ b, o⟩, n⟩) := by
  unfold decode_to_boxed_bytes; renh [ren_decode_auto]
theorem ren_encode_append (P extra i c) (b o n vb vl vc : Nat) :
    Ren ρ (RelV ρ) (encode_append P extra i ⟨⟨b, o⟩, n⟩ ⟨vb, vl, vc⟩ c) (encode_append P extra i ⟨⟨ρ b, o⟩, n⟩ ⟨ρ vb, vl, vc⟩ c) := by
  unfold encode_append encode_append_vec; renh [ren_encode_auto]
theorem ren_decode_append (P extra i) (b o n vb vl vc : Nat) :
    Ren ρ (RelVE ρ) (decode_append P extra i ⟨⟨b, o⟩, n⟩ ⟨vb, vl, vc⟩) (decode_append P extra i ⟨⟨ρ b, o⟩, n⟩ ⟨ρ vb, vl, vc⟩) := by
  unfold decode_append decode_append_vec; renh [ren_decode_auto]
end Hex

/-- Owned results in renamed allocations. -/
def Owned.move (σ : Nat → Nat) : Owned → Owned
  | .bytes s => .bytes ⟨⟨σ s.ptr.buf, s.ptr.off⟩, s.len⟩
  | .str s => .str ⟨⟨σ s.ptr.buf, s.ptr.off⟩, s.len⟩
  | .vec v => .vec ⟨σ v.buf, v.len, v.cap⟩
  | .string v => .string ⟨σ v.buf, v.len, v.cap⟩
abbrev RelO (ρ : Nat → Nat) (r r' : Owned) : Prop := r' = r.move ρ

theorem ren_wrap {x y : Prog Slice} (h : Ren ρ (RelS ρ) x y) {f : Slice → Owned} (hf : ∀ s : Slice, (f s).move ρ = f ⟨⟨ρ s.ptr.buf, s.ptr.off⟩, s.len⟩) :
    Ren ρ (RelO ρ) (do let s ← x; pure (f s)) (do let s ← y; pure (f s)) := by
  refine Ren.bind h fun s s' hs => ?_
  subst hs
  exact Ren.ret (hf s).symm

theorem Base64.ren_encode_type (P i config) (b o n : Nat) (ty) :
    Ren ρ (RelO ρ) (encode_type P i config ⟨⟨b, o⟩, n⟩ ty) (encode_type P i config ⟨⟨ρ b, o⟩, n⟩ ty) := by
  cases ty <;> exact ren_wrap (ren_encode_to_boxed_str ..) fun _ => rfl
theorem Base64.ren_decode_type (P i config) (b o n : Nat) (ty) :
    Ren ρ (RelO ρ) (decode_type P i config ⟨⟨b, o⟩, n⟩ ty) (decode_type P i config ⟨⟨ρ b, o⟩, n⟩ ty) := by
  cases ty <;> exact ren_wrap (ren_decode_to_boxed_bytes ..) fun _ => rfl
theorem Base32.ren_encode_type (P w i config) (b o n : Nat) (ty) :
    Ren ρ (RelO ρ) (encode_type P w i config ⟨⟨b, o⟩, n⟩ ty) (encode_type P w i config ⟨⟨ρ b, o⟩, n⟩ ty) := by
  cases ty <;> exact ren_wrap (ren_encode_to_boxed_str ..) fun _ => rfl
theorem Base32.ren_decode_type (P w i config) (b o n : Nat) (ty) :
    Ren ρ (RelO ρ) (decode_type P w i config ⟨⟨b, o⟩, n⟩ ty) (decode_type P w i config ⟨⟨ρ b, o⟩, n⟩ ty) := by
  cases ty <;> exact ren_wrap (ren_decode_to_boxed_bytes ..) fun _ => rfl
theorem Hex.ren_encode_type (P i) (b o n : Nat) (c ty) :
    Ren ρ (RelO ρ) (encode_type P i ⟨⟨b, o⟩, n⟩ c ty) (encode_type P i ⟨⟨ρ b, o⟩, n⟩ c ty) := by
  cases ty <;> exact ren_wrap (ren_encode_to_boxed_str ..) fun _ => rfl
theorem Hex.ren_decode_type (P i) (b o n : Nat) (ty) :
    Ren ρ (RelO ρ) (decode_type P i ⟨⟨b, o⟩, n⟩ ty) (decode_type P i ⟨⟨ρ b, o⟩, n⟩ ty) := by
  cases ty <;> exact ren_wrap (ren_decode_to_boxed_bytes ..) fun _ => rfl

end Simd
