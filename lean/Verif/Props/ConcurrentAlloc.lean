import Verif.Lemmas.ConcurrentAlloc
import Verif.Lemmas.FootprintHeap
import Verif.Lemmas.RenHeap
import Verif.Lemmas.RenUnicode
import Verif.Model.HeapCalls
import Verif.Props.AppendPanic
import Verif.Props.Concurrent
import Verif.Props.Owned
/-
C79: functions called at the same time by different threads do not disturb each other, those that allocate their result or append to a vector included.
-/
namespace Simd
open Dispatch

/-- The implementations a call uses are ones that the machine may execute, and the parameters are those of the published constants. -/
def HeapCall.RunsOn (M : Machine) {α : Type} : HeapCall α → Prop
  | .base64Encode i config _ _ | .base64EncodeAppend _ i config _ _ => M.Runs base64_encode i ∧ ∃ url pad, Base64.IsVariant config url pad
  | .base64Decode i config _ _ | .base64DecodeAppend _ i config _ _ => M.Runs base64_decode i ∧ ∃ url pad, Base64.IsVariant config url pad
  | .forgiving _ fi di _ => M.Runs base64_find fi ∧ M.Runs base64_decode di
  | .base32Encode w i config _ _ | .base32EncodeAppend w _ i config _ _ => w = M.wasm ∧ M.Runs base32_encode i ∧ ∃ hex pad, Base32.IsVariant config hex pad
  | .base32Decode w i config _ _ | .base32DecodeAppend w _ i config _ _ => w = M.wasm ∧ M.Runs base32_decode i ∧ ∃ hex pad, Base32.IsVariant config hex pad
  | .hexEncode i _ _ _ | .hexEncodeAppend _ i _ _ _ => M.Runs hex_encode i
  | .hexDecode i _ _ | .hexDecodeAppend _ i _ _ => M.Runs hex_decode i

/-- What safe Rust guarantees about the arguments: the source is initialised and has at most `isize::MAX` bytes; the vector is a vector, of a capacity of at most
`isize::MAX` bytes, and the source is not in it. -/
def HeapCall.Borrows (P : Plat) (m : Mem) {α : Type} (c : HeapCall α) : Prop :=
  (∃ xs, xs.length = c.shared.len ∧ Spec.Reads m c.shared.ptr xs) ∧ c.shared.ptr.buf < m.nbuf ∧ c.shared.len ≤ P.isizeMax ∧
  ∀ v, c.vec = some v → (∃ prev, Spec.IsVec m v prev) ∧ c.shared.ptr.buf ≠ v.buf ∧ v.cap ≤ P.isizeMax

def AnyCall.RunsOn (M : Machine) {α : Type} : AnyCall α → Prop
  | .inl c => c.RunsOn M
  | .inr c => c.RunsOn M

def AnyCall.Borrows (P : Plat) (m : Mem) {α : Type} : AnyCall α → Prop
  | .inl c => c.Borrows P m ∧ c.shared.1.buf < m.nbuf ∧ c.exclusive.1.buf < m.nbuf
  | .inr c => c.Borrows P m

/-- The bytes the call borrows with `&`. -/
def AnyCall.Shared {α : Type} (c : AnyCall α) (b i : Nat) : Prop :=
  match c with
  | .inl c => Spec.In c.shared.1 c.shared.2 b i
  | .inr c => Spec.In c.shared.ptr c.shared.len b i

/-- The bytes the call borrows with `&mut`; of a vector it is the whole allocation. -/
def AnyCall.Exclusive {α : Type} (c : AnyCall α) (b i : Nat) : Prop :=
  match c with
  | .inl c => Spec.In c.exclusive.1 c.exclusive.2 b i
  | .inr c => ∃ v, c.vec = some v ∧ b = v.buf

/-- How the result refers to allocations. -/
@[instance_reducible]
def AnyCall.moves {α : Type} : AnyCall α → Spec.Moves α
  | .inl c => match c with
    | .base64Encode .. | .base64Decode .. | .base64Inplace .. | .forgiving .. | .forgivingInplace .. | .base32Encode .. | .base32Decode .. | .base32Inplace ..
    | .hexEncode .. | .hexDecode .. | .hexInplace .. | .uuidParse .. | .uuidParseSimple .. | .uuidParseHyphenated .. | .uuidFormatSimple .. | .uuidFormatHyphenated ..
    | .swap .. => inferInstanceAs (Spec.Moves Slice)
    | .base64Check .. | .base32Check .. | .hexCheck .. | .swapInplace .. => inferInstanceAs (Spec.Moves Unit)
    | .isAscii .. | .isUtf32le .. => inferInstanceAs (Spec.Moves Bool)
  | .inr c => match c with
    | .base64Encode .. | .base64Decode .. | .base32Encode .. | .base32Decode .. | .hexEncode .. | .hexDecode .. => inferInstanceAs (Spec.Moves Owned)
    | .base64EncodeAppend .. | .forgiving .. | .base32EncodeAppend .. | .hexEncodeAppend .. => inferInstanceAs (Spec.Moves RVec)
    | .base64DecodeAppend .. | .base32DecodeAppend .. | .hexDecodeAppend .. => inferInstanceAs (Spec.Moves (RVec × Except Unit Unit))

/-! ### Each call alone -/

theorem panic_ne {α : Type} {x : Prog α} {m : Mem} (h : x.run m = .panic) : x.run m ≠ .ub := by rw [h]; exact fun h => nomatch h

theorem wrap_ne {α β : Type} {x : Prog α} {f : α → β} {m : Mem} (h : x.run m ≠ .ub) : (do let s ← x; pure (f s) : Prog β).run m ≠ .ub := by
  rw [run_bind]
  cases hx : x.run m with
  | ub => exact absurd hx h
  | _ => exact fun h => nomatch h

theorem ok_ne₂ {α β : Type} {x : Prog α} {m : Mem} {f : β → α} {Q : β → Mem → Prop} (h : ∃ a m', x.run m = .ok (f a) m' ∧ Q a m') : x.run m ≠ .ub := by
  obtain ⟨a, m', h, -⟩ := h
  rw [h]; exact fun h => nomatch h

theorem HeapCall.safe (M : Machine) {α : Type} (c : HeapCall α) (m : Mem) (hr : c.RunsOn M) (hb : c.Borrows M.P m) : (c.prog M.P).run m ≠ .ub := by
  obtain ⟨⟨xs, hl, hx⟩, hn, hP, hv⟩ := hb
  cases c with
  | base64Encode i config src ty =>
    obtain ⟨hi, url, pad, hc⟩ := hr
    have hi := Runs.ne_sse2 hi (by decide)
    obtain ⟨p, _⟩ := src
    dsimp only [shared] at *; subst hl
    have h := Base64.C61_encode_owned M.P hi hc m p xs hx hn hP
    have : (Base64.encode_to_boxed_str M.P i config ⟨p, xs.length⟩).run m ≠ .ub := by
      by_cases hh : (Spec.base64 url pad xs).length ≤ M.P.usizeMax / 2
      · exact ok_ne₂ (f := id) (h.1 hh).1
      · exact panic_ne (h.2 (by omega)).1
    cases ty <;> exact wrap_ne this
  | base64Decode i config src ty =>
    obtain ⟨hi, url, pad, hc⟩ := hr
    have hi := Runs.ne_sse2 hi (by decide)
    obtain ⟨p, _⟩ := src
    dsimp only [shared] at *; subst hl
    have h := Base64.C61_decode_owned M.P hi hc m p xs hx hn hP
    have : (Base64.decode_to_boxed_bytes M.P i config ⟨p, xs.length⟩).run m ≠ .ub := by
      by_cases hh : ∃ ys, Spec.base64 url pad ys = xs
      · obtain ⟨ys, hy⟩ := hh; exact ok_ne₂ (f := id) (h.1 ys hy).1
      · exact err_ne (h.2 hh).1
    cases ty <;> exact wrap_ne this
  | base64EncodeAppend extra i config src v =>
    obtain ⟨hi, url, pad, hc⟩ := hr
    have hi := Runs.ne_sse2 hi (by decide)
    obtain ⟨p, _⟩ := src
    obtain ⟨⟨prev, hv1⟩, hv2, hv3⟩ := hv v rfl
    dsimp only [shared] at *; subst hl
    have h := Base64.C61_encode_append M.P extra hi hc m p xs hx hn hP v prev hv1 hv2 hv3
    by_cases hh : (Spec.base64 url pad xs).length ≤ M.P.usizeMax / 2 ∧ ((Spec.base64 url pad xs).length ≤ v.cap - v.len ∨ v.len + (Spec.base64 url pad xs).length + extra ≤ M.P.isizeMax)
    · exact ok_ne₂ (f := id) (h.1 hh)
    · exact panic_ne (h.2 hh)
  | base64DecodeAppend extra i config src v =>
    obtain ⟨hi, url, pad, hc⟩ := hr
    have hi := Runs.ne_sse2 hi (by decide)
    obtain ⟨p, _⟩ := src
    obtain ⟨⟨prev, hv1⟩, hv2, hv3⟩ := hv v rfl
    dsimp only [shared] at *; subst hl
    have h := Base64.C61_decode_append_any M.P extra hi hc m p xs hx hn v prev hv1 hv2 hv3
    by_cases hh : ∃ ys, Spec.base64 url pad ys = xs
    · obtain ⟨ys, hy⟩ := hh
      by_cases hg : Spec.CanGrow M.P extra v ys.length
      · exact ok_ne₂ ((h.1 ys hy).1 hg)
      · exact panic_ne ((h.1 ys hy).2 hg)
    · rcases h.2 hh with h | h
      · exact ok_ne₂ h
      · exact panic_ne h.1
  | forgiving extra fi di src =>
    have hi := Runs.ne_sse2 hr.2 (by decide)
    obtain ⟨p, _⟩ := src
    dsimp only [shared] at *; subst hl
    have h := Base64.C61_forgiving_any M.P extra fi hi m p xs hx hn hP
    by_cases hh : (∃ x ∈ xs, Spec.isWs x = true) ∧ M.P.isizeMax < xs.length + extra
    · exact panic_ne (h.1 hh)
    · cases hf : Spec.forgivingDecode xs with
      | some ys => exact ok_ne₂ (f := id) ((h.2 hh).1 ys hf)
      | none => exact err_ne ((h.2 hh).2 hf)
  | base32Encode w i config src ty =>
    obtain ⟨rfl, hi, hex, pad, hc⟩ := hr
    have hi := Base32.impl_of_runs hi (by decide) (by decide)
    obtain ⟨p, _⟩ := src
    dsimp only [shared] at *; subst hl
    have h := Base32.C61_encode_owned M.P M.wasm hi hc m p xs hx hn hP
    have : (Base32.encode_to_boxed_str M.P M.wasm i config ⟨p, xs.length⟩).run m ≠ .ub := by
      by_cases hh : (Spec.base32 hex pad xs).length ≤ M.P.usizeMax / 2
      · exact ok_ne₂ (f := id) (h.1 hh).1
      · exact panic_ne (h.2 (by omega)).1
    cases ty <;> exact wrap_ne this
  | base32Decode w i config src ty =>
    obtain ⟨rfl, hi, hex, pad, hc⟩ := hr
    have hi := Base32.impl_of_runs hi (by decide) (by decide)
    obtain ⟨p, _⟩ := src
    dsimp only [shared] at *; subst hl
    have h := Base32.C61_decode_owned M.P M.wasm hi hc m p xs hx hn hP
    have : (Base32.decode_to_boxed_bytes M.P M.wasm i config ⟨p, xs.length⟩).run m ≠ .ub := by
      by_cases hh : ∃ ys, Spec.base32 hex pad ys = xs
      · obtain ⟨ys, hy⟩ := hh; exact ok_ne₂ (f := id) (h.1 ys hy).1
      · exact err_ne (h.2 hh).1
    cases ty <;> exact wrap_ne this
  | base32EncodeAppend w extra i config src v =>
    obtain ⟨rfl, hi, hex, pad, hc⟩ := hr
    have hi := Base32.impl_of_runs hi (by decide) (by decide)
    obtain ⟨p, _⟩ := src
    obtain ⟨⟨prev, hv1⟩, hv2, hv3⟩ := hv v rfl
    dsimp only [shared] at *; subst hl
    have h := Base32.C61_encode_append M.P M.wasm extra hi hc m p xs hx hn hP v prev hv1 hv2 hv3
    by_cases hh : (Spec.base32 hex pad xs).length ≤ M.P.usizeMax / 2 ∧ ((Spec.base32 hex pad xs).length ≤ v.cap - v.len ∨ v.len + (Spec.base32 hex pad xs).length + extra ≤ M.P.isizeMax)
    · exact ok_ne₂ (f := id) (h.1 hh)
    · exact panic_ne (h.2 hh)
  | base32DecodeAppend w extra i config src v =>
    obtain ⟨rfl, hi, hex, pad, hc⟩ := hr
    have hi := Base32.impl_of_runs hi (by decide) (by decide)
    obtain ⟨p, _⟩ := src
    obtain ⟨⟨prev, hv1⟩, hv2, hv3⟩ := hv v rfl
    dsimp only [shared] at *; subst hl
    have h := Base32.C61_decode_append_any M.P M.wasm extra hi hc m p xs hx hn v prev hv1 hv2 hv3
    by_cases hh : ∃ ys, Spec.base32 hex pad ys = xs
    · obtain ⟨ys, hy⟩ := hh
      by_cases hg : Spec.CanGrow M.P extra v ys.length
      · exact ok_ne₂ ((h.1 ys hy).1 hg)
      · exact panic_ne ((h.1 ys hy).2 hg)
    · rcases h.2 hh with h | h
      · exact ok_ne₂ h
      · exact panic_ne h.1
  | hexEncode i case src ty =>
    obtain ⟨p, _⟩ := src
    dsimp only [shared] at *; subst hl
    have h := Hex.C61_encode_owned M.P i case m p xs hx hn hP
    have : (Hex.encode_to_boxed_str M.P i ⟨p, xs.length⟩ case).run m ≠ .ub := by
      by_cases hh : (Spec.hexEncode (case == .upper) xs).length ≤ M.P.usizeMax / 2
      · exact ok_ne₂ (f := id) (h.1 hh).1
      · exact panic_ne (h.2 (by omega)).1
    cases ty <;> exact wrap_ne this
  | hexDecode i src ty =>
    obtain ⟨p, _⟩ := src
    dsimp only [shared] at *; subst hl
    have h := Hex.C61_decode_owned M.P i m p xs hx hn hP
    have : (Hex.decode_to_boxed_bytes M.P i ⟨p, xs.length⟩).run m ≠ .ub := by
      by_cases hh : ∃ ys, Spec.IsHexOf xs ys
      · obtain ⟨ys, hy⟩ := hh; exact ok_ne₂ (f := id) (h.1 ys hy).1
      · exact err_ne (h.2 hh).1
    cases ty <;> exact wrap_ne this
  | hexEncodeAppend extra i case src v =>
    obtain ⟨p, _⟩ := src
    obtain ⟨⟨prev, hv1⟩, hv2, hv3⟩ := hv v rfl
    dsimp only [shared] at *; subst hl
    have h := Hex.C61_encode_append M.P extra i case m p xs hx hn hP v prev hv1 hv2 hv3
    by_cases hh : (Spec.hexEncode (case == .upper) xs).length ≤ M.P.usizeMax / 2 ∧
        ((Spec.hexEncode (case == .upper) xs).length ≤ v.cap - v.len ∨ v.len + (Spec.hexEncode (case == .upper) xs).length + extra ≤ M.P.isizeMax)
    · exact ok_ne₂ (f := id) (h.1 hh)
    · exact panic_ne (h.2 hh)
  | hexDecodeAppend extra i src v =>
    obtain ⟨p, _⟩ := src
    obtain ⟨⟨prev, hv1⟩, hv2, hv3⟩ := hv v rfl
    dsimp only [shared] at *; subst hl
    have h := Hex.C61_decode_append_any M.P extra i m p xs hx hn v prev hv1 hv2 hv3
    by_cases hg : xs.length % 2 = 0 ∧ ¬ Spec.CanGrow M.P extra v (xs.length / 2)
    · exact panic_ne (h.1 hg)
    · by_cases hh : ∃ ys, Spec.IsHexOf xs ys
      · obtain ⟨ys, hy⟩ := hh; exact ok_ne₂ ((h.2 hg).1 ys hy)
      · exact ok_ne₂ ((h.2 hg).2 hh)

theorem HeapCall.usesA {L W : Nat → Prop} {α : Type} (P : Plat) (c : HeapCall α) (hp : L c.shared.ptr.buf) (hv : ∀ v, c.vec = some v → L v.buf ∧ W v.buf) : UsesA' L W (c.prog P) := by
  cases c with
  | base64Encode _ _ _ ty => cases ty <;> exact .seq (Base64.usesA_encode_boxed hp ..) fun _ => .ret_true
  | base64Decode _ _ _ ty => cases ty <;> exact .seq (Base64.usesA_decode_boxed hp ..) fun _ => .ret_true
  | base64EncodeAppend _ _ _ _ v => exact Base64.usesA_encode_append hp (hv v rfl).1 (hv v rfl).2 ..
  | base64DecodeAppend _ _ _ _ v => exact Base64.usesA_decode_append hp (hv v rfl).1 (hv v rfl).2 ..
  | forgiving => exact Base64.usesA_forgiving_to_vec hp ..
  | base32Encode _ _ _ _ ty => cases ty <;> exact .seq (Base32.usesA_encode_boxed hp ..) fun _ => .ret_true
  | base32Decode _ _ _ _ ty => cases ty <;> exact .seq (Base32.usesA_decode_boxed hp ..) fun _ => .ret_true
  | base32EncodeAppend _ _ _ _ _ v => exact Base32.usesA_encode_append hp (hv v rfl).1 (hv v rfl).2 ..
  | base32DecodeAppend _ _ _ _ _ v => exact Base32.usesA_decode_append hp (hv v rfl).1 (hv v rfl).2 ..
  | hexEncode _ _ _ ty => cases ty <;> exact .seq (Hex.usesA_encode_boxed hp ..) fun _ => .ret_true
  | hexDecode _ _ ty => cases ty <;> exact .seq (Hex.usesA_decode_boxed hp ..) fun _ => .ret_true
  | hexEncodeAppend _ _ _ _ v => exact Hex.usesA_encode_append hp (hv v rfl).1 (hv v rfl).2 ..
  | hexDecodeAppend _ _ _ v => exact Hex.usesA_decode_append hp (hv v rfl).1 (hv v rfl).2 ..

theorem HeapCall.Borrows.mask {P : Plat} {m : Mem} {α : Type} {c : HeapCall α} (h : c.Borrows P m) : c.Borrows P (m.mask c.shared.ptr c.shared.len) := by
  obtain ⟨⟨xs, hl, hx⟩, hn, hP, hv⟩ := h
  refine ⟨⟨xs, hl, ?_⟩, hn, hP, fun v hvv => ?_⟩
  · rw [← hl]; exact Mem.mask_reads hx
  · obtain ⟨⟨prev, h1⟩, h2, h3⟩ := hv v hvv
    exact ⟨⟨prev, Mem.mask_vec h1 h2⟩, h2, h3⟩

/-- A call that allocates accesses, of what was there before, only what it borrows, and stores only to the vector. -/
theorem HeapCall.inside (M : Machine) {α : Type} (c : HeapCall α) (m : Mem) (hr : c.RunsOn M) (hb : c.Borrows M.P m) :
    Inside (fun b i => m.nbuf ≤ b ∨ AnyCall.Shared (.inr c) b i ∨ AnyCall.Exclusive (.inr c) b i) (fun b i => m.nbuf ≤ b ∨ AnyCall.Exclusive (.inr c) b i) ((c.prog M.P).trace m) := by
  have h := trace_inA (M := m) (c.usesA M.P (L := fun b => m.nbuf ≤ b ∨ b = c.shared.ptr.buf ∨ ∃ v, c.vec = some v ∧ b = v.buf)
    (W := fun b => m.nbuf ≤ b ∨ ∃ v, c.vec = some v ∧ b = v.buf) (.inr (.inl rfl)) (fun v hv => ⟨.inr (.inr ⟨v, hv, rfl⟩), .inr ⟨v, hv, rfl⟩⟩))
    (μ := m.mask c.shared.ptr c.shared.len) (fun b hb => .inl hb) (fun b hb => .inl hb) (Mem.mask_sub ..) rfl (c.safe M _ hr hb.mask)
  intro a ha
  have h := h a ha
  cases a with
  | load r k =>
    rintro b i ⟨rfl, h1, h2⟩
    by_cases hw : m.nbuf ≤ r.buf ∨ ∃ v, c.vec = some v ∧ r.buf = v.buf
    · exact hw.imp id .inr
    · have hc := h.2 hw (i - r.off) (by omega)
      rw [show r.off + (i - r.off) = i by omega] at hc
      have hp : r.buf = c.shared.ptr.buf := by
        rcases h.1 with h | h | h
        · exact absurd (.inl h) hw
        · exact h
        · exact absurd (.inr h) hw
      simp only [Mem.mask] at hc
      split at hc
      · exact absurd rfl hc
      · rename_i hh
        refine .inr (.inl ⟨hp, ?_⟩)
        by_contra h3
        exact hh ⟨hp, h3⟩
  | store r k =>
    rintro b i ⟨rfl, h1, h2⟩
    exact h

/-- The accesses and the result do not depend on the numbers of the allocations. -/
theorem AnyCall.ren {α : Type} (P : Plat) (c : AnyCall α) {m : Mem} (hb : c.Borrows P m) {ρ : Nat → Nat} (hρ : ∀ b, b < m.nbuf → ρ b = b) :
    Ren ρ (fun a a' => a' = c.moves.move ρ a) (c.prog P) (c.prog P) := by
  cases c with
  | inl c =>
    obtain ⟨-, h1, h2⟩ := hb
    have h1 := hρ _ h1
    have h2 := hρ _ h2
    cases c with
    | base64Encode i config s d => have := Base64.ren_encode (ρ := ρ) s.ptr.buf s.ptr.off s.len d.ptr.buf d.ptr.off d.len P i config; simp only [Call.shared, Call.exclusive] at h1 h2; simp only [h1, h2] at this; exact this
    | base64Decode i config s d => have := Base64.ren_decode (ρ := ρ) s.ptr.buf s.ptr.off s.len d.ptr.buf d.ptr.off d.len i config; simp only [Call.shared, Call.exclusive] at h1 h2; simp only [h1, h2] at this; exact this
    | base64Inplace i config s => have := Base64.ren_decode_inplace (ρ := ρ) s.ptr.buf s.ptr.off s.len i config; simp only [Call.shared, Call.exclusive] at h1 h2; simp only [h1] at this; exact this
    | base64Check i config s => have := Base64.ren_check (ρ := ρ) s.ptr.buf s.ptr.off s.len i config; simp only [Call.shared, Call.exclusive] at h1 h2; simp only [h1] at this; exact this.mono fun _ _ h => h.symm
    | forgiving fi di s d => have := Base64.ren_forgiving (ρ := ρ) s.ptr.buf s.ptr.off s.len d.ptr.buf d.ptr.off d.len fi di; simp only [Call.shared, Call.exclusive] at h1 h2; simp only [h1, h2] at this; exact this
    | forgivingInplace fi di s => have := Base64.ren_forgiving_inplace (ρ := ρ) s.ptr.buf s.ptr.off s.len fi di; simp only [Call.shared, Call.exclusive] at h1 h2; simp only [h1] at this; exact this
    | base32Encode w i config s d => have := Base32.ren_encode (ρ := ρ) s.ptr.buf s.ptr.off s.len d.ptr.buf d.ptr.off d.len P w i config; simp only [Call.shared, Call.exclusive] at h1 h2; simp only [h1, h2] at this; exact this
    | base32Decode w i config s d => have := Base32.ren_decode (ρ := ρ) s.ptr.buf s.ptr.off s.len d.ptr.buf d.ptr.off d.len w i config; simp only [Call.shared, Call.exclusive] at h1 h2; simp only [h1, h2] at this; exact this
    | base32Inplace w i config s => have := Base32.ren_decode_inplace (ρ := ρ) s.ptr.buf s.ptr.off s.len w i config; simp only [Call.shared, Call.exclusive] at h1 h2; simp only [h1] at this; exact this
    | base32Check i config s => have := Base32.ren_check (ρ := ρ) s.ptr.buf s.ptr.off s.len i config; simp only [Call.shared, Call.exclusive] at h1 h2; simp only [h1] at this; exact this.mono fun _ _ h => h.symm
    | hexEncode i case s d => have := Hex.ren_encode (ρ := ρ) s.ptr.buf s.ptr.off s.len d.ptr.buf d.ptr.off d.len P i case; simp only [Call.shared, Call.exclusive] at h1 h2; simp only [h1, h2] at this; exact this
    | hexDecode i s d => have := Hex.ren_decode (ρ := ρ) s.ptr.buf s.ptr.off s.len d.ptr.buf d.ptr.off d.len i; simp only [Call.shared, Call.exclusive] at h1 h2; simp only [h1, h2] at this; exact this
    | hexInplace i s => have := Hex.ren_decode_inplace (ρ := ρ) s.ptr.buf s.ptr.off s.len i; simp only [Call.shared, Call.exclusive] at h1 h2; simp only [h1] at this; exact this
    | hexCheck i s => have := Hex.ren_check_auto (ρ := ρ) s.ptr.buf s.ptr.off i s.len; simp only [Call.shared, Call.exclusive] at h1 h2; simp only [h1] at this; exact this.mono fun _ _ h => h.symm
    | uuidParse si hi s d => have := Uuid.ren_parse (ρ := ρ) s.ptr.buf s.ptr.off s.len d.buf d.off si hi; simp only [Call.shared, Call.exclusive] at h1 h2; simp only [h1, h2] at this; exact this
    | uuidParseSimple i s d => have := Uuid.ren_parse_simple (ρ := ρ) s.ptr.buf s.ptr.off s.len d.buf d.off i; simp only [Call.shared, Call.exclusive] at h1 h2; simp only [h1, h2] at this; exact this
    | uuidParseHyphenated i s d => have := Uuid.ren_parse_hyphenated (ρ := ρ) s.ptr.buf s.ptr.off s.len d.buf d.off i; simp only [Call.shared, Call.exclusive] at h1 h2; simp only [h1, h2] at this; exact this
    | uuidFormatSimple i case s d => have := Uuid.ren_format_simple (ρ := ρ) s.buf s.off d.buf d.off i case; simp only [Call.shared, Call.exclusive] at h1 h2; simp only [h1, h2] at this; exact this
    | uuidFormatHyphenated i case s d => have := Uuid.ren_format_hyphenated (ρ := ρ) s.buf s.off d.buf d.off i case; simp only [Call.shared, Call.exclusive] at h1 h2; simp only [h1, h2] at this; exact this
    | isAscii x64 i s => have := Unicode.ren_is_ascii (ρ := ρ) s.ptr.buf s.ptr.off s.len x64 i; simp only [Call.shared, Call.exclusive] at h1 h2; simp only [h1] at this; exact this.mono fun _ _ h => h.symm
    | isUtf32le i s => have := Unicode.ren_is_utf32le (ρ := ρ) s.ptr.buf s.ptr.off s.len i; simp only [Call.shared, Call.exclusive] at h1 h2; simp only [h1] at this; exact this.mono fun _ _ h => h.symm
    | swap t i s d => have := Unicode.ren_swap_endianness (ρ := ρ) s.ptr.buf s.ptr.off s.len d.ptr.buf d.ptr.off d.len t i; simp only [Call.shared, Call.exclusive] at h1 h2; simp only [h1, h2] at this; exact this
    | swapInplace t i s => have := Unicode.ren_swap_endianness_inplace (ρ := ρ) s.ptr.buf s.ptr.off s.len t i; simp only [Call.shared, Call.exclusive] at h1 h2; simp only [h1] at this; exact this.mono fun _ _ h => h.symm
  | inr c =>
    have hv := hb.2.2.2
    have h1 := hρ _ hb.2.1
    have ho : ∀ a a' : Owned, RelO ρ a a' → a' = Spec.Moves.move ρ a := fun a a' h => by subst h; cases a <;> rfl
    cases c with
    | base64Encode i config s ty => have := Base64.ren_encode_type (ρ := ρ) P i config s.ptr.buf s.ptr.off s.len ty; simp only [HeapCall.shared] at h1; simp only [h1] at this; exact this.mono ho
    | base64Decode i config s ty => have := Base64.ren_decode_type (ρ := ρ) P i config s.ptr.buf s.ptr.off s.len ty; simp only [HeapCall.shared] at h1; simp only [h1] at this; exact this.mono ho
    | base64EncodeAppend extra i config s v => have h2 := hρ _ (hv v rfl).1.choose_spec.1; have := Base64.ren_encode_append (ρ := ρ) P extra i config s.ptr.buf s.ptr.off s.len v.buf v.len v.cap; simp only [HeapCall.shared] at h1; simp only [h1, h2] at this; exact this
    | base64DecodeAppend extra i config s v => have h2 := hρ _ (hv v rfl).1.choose_spec.1; have := Base64.ren_decode_append (ρ := ρ) P extra i config s.ptr.buf s.ptr.off s.len v.buf v.len v.cap; simp only [HeapCall.shared] at h1; simp only [h1, h2] at this; exact this
    | forgiving extra fi di s => have := Base64.ren_forgiving_decode_to_vec (ρ := ρ) P extra fi di s.ptr.buf s.ptr.off s.len; simp only [HeapCall.shared] at h1; simp only [h1] at this; exact this
    | base32Encode w i config s ty => have := Base32.ren_encode_type (ρ := ρ) P w i config s.ptr.buf s.ptr.off s.len ty; simp only [HeapCall.shared] at h1; simp only [h1] at this; exact this.mono ho
    | base32Decode w i config s ty => have := Base32.ren_decode_type (ρ := ρ) P w i config s.ptr.buf s.ptr.off s.len ty; simp only [HeapCall.shared] at h1; simp only [h1] at this; exact this.mono ho
    | base32EncodeAppend w extra i config s v => have h2 := hρ _ (hv v rfl).1.choose_spec.1; have := Base32.ren_encode_append (ρ := ρ) P w extra i config s.ptr.buf s.ptr.off s.len v.buf v.len v.cap; simp only [HeapCall.shared] at h1; simp only [h1, h2] at this; exact this
    | base32DecodeAppend w extra i config s v => have h2 := hρ _ (hv v rfl).1.choose_spec.1; have := Base32.ren_decode_append (ρ := ρ) P w extra i config s.ptr.buf s.ptr.off s.len v.buf v.len v.cap; simp only [HeapCall.shared] at h1; simp only [h1, h2] at this; exact this
    | hexEncode i case s ty => have := Hex.ren_encode_type (ρ := ρ) P i s.ptr.buf s.ptr.off s.len case ty; simp only [HeapCall.shared] at h1; simp only [h1] at this; exact this.mono ho
    | hexDecode i s ty => have := Hex.ren_decode_type (ρ := ρ) P i s.ptr.buf s.ptr.off s.len ty; simp only [HeapCall.shared] at h1; simp only [h1] at this; exact this.mono ho
    | hexEncodeAppend extra i case s v => have h2 := hρ _ (hv v rfl).1.choose_spec.1; have := Hex.ren_encode_append (ρ := ρ) P extra i case s.ptr.buf s.ptr.off s.len v.buf v.len v.cap; simp only [HeapCall.shared] at h1; simp only [h1, h2] at this; exact this
    | hexDecodeAppend extra i s v => have h2 := hρ _ (hv v rfl).1.choose_spec.1; have := Hex.ren_decode_append (ρ := ρ) P extra i s.ptr.buf s.ptr.off s.len v.buf v.len v.cap; simp only [HeapCall.shared] at h1; simp only [h1, h2] at this; exact this

theorem AnyCall.safe (M : Machine) {α : Type} (c : AnyCall α) (m : Mem) (hr : c.RunsOn M) (hb : c.Borrows M.P m) : (c.prog M.P).run m ≠ .ub := by
  cases c with
  | inl c => exact (c.fine M m hr hb.1).safe
  | inr c => exact c.safe M m hr hb

theorem AnyCall.inside (M : Machine) {α : Type} (c : AnyCall α) (m : Mem) (hr : c.RunsOn M) (hb : c.Borrows M.P m) :
    Inside (fun b i => m.nbuf ≤ b ∨ c.Shared b i ∨ c.Exclusive b i) (fun b i => m.nbuf ≤ b ∨ c.Exclusive b i) ((c.prog M.P).trace m) := by
  cases c with
  | inl c =>
    intro a ha
    have := (c.fine M m hr hb.1).inside a ha
    cases a with
    | load r k => exact fun b i hi => .inr (this b i hi)
    | store r k => exact fun b i hi => .inr (this b i hi)
  | inr c => exact c.inside M m hr hb

/-! ### All together -/

/-- C79: calls made at the same time by any number of threads on the same machine, of the slice functions, of the functions that allocate their result, and of those that append to a vector.
If the arguments are as safe Rust guarantees, in particular what one thread borrows with `&mut` is borrowed by no other, then under every schedule there is no data race, no
undefined behaviour and no deadlock, every call has the outcome it has when it is the only one, up to the addresses of new allocations, with the same bytes in its destination, in its vector and in its new allocations; the
allocations made by different threads are different, and nothing else changes. -/
theorem C79_calls (M : Machine) {k : Nat} {α : Fin k → Type} (c : (t : Fin k) → AnyCall (α t)) (m : Mem) (hm : Spec.Tidy m) (hr : ∀ t, (c t).RunsOn M) (hb : ∀ t, (c t).Borrows M.P m)
    (hd : ∀ t u, t ≠ u → ∀ b i, (c t).Exclusive b i → ¬ ((c u).Shared b i ∨ (c u).Exclusive b i)) :
    @Spec.Isolated' k α (fun t => (c t).moves) (fun t => (c t).prog M.P) m (fun t => (c t).Exclusive) :=
  @isolated' k α (fun t => (c t).moves) (fun t => (c t).prog M.P) m (fun t b i => (c t).Shared b i ∨ (c t).Exclusive b i) (fun t => (c t).Exclusive) hm
    (fun t _ hρ _ => (c t).ren M.P (hb t) hρ) (fun t => (c t).safe M m (hr t) (hb t)) (fun t => (c t).inside M m (hr t) (hb t))
    (fun t u htu b i _ hw h => hd t u htu b i hw (h.elim id .inr))

/-- What is left of the thread's vector after the others have run too. -/
theorem isVec_moved {m m' M : Mem} {σ : Nat → Nat} {v : RVec} {ys : List Byte} (h : Spec.NewVec m m' v ys)
    (hσ : ∀ b, m.nbuf ≤ b → b < m'.nbuf → m.nbuf ≤ σ b ∧ σ b < M.nbuf ∧ M.size (σ b) = m'.size b ∧ ∀ i, M.cell (σ b) i = m'.cell b i) :
    Spec.NewVec m M ⟨σ v.buf, v.len, v.cap⟩ ys := by
  obtain ⟨h0, h1, h2, h3, h4, h5⟩ := h
  obtain ⟨a1, a2, a3, a4⟩ := hσ v.buf h0 h1
  refine ⟨a1, a2, by rw [a3]; exact h2, h3, ?_, fun i hi => by rw [a4]; exact h5 i hi⟩
  show _ ≤ M.size (σ v.buf)
  rw [a3]; exact h4

/-- C79 for `encode_to_string`: any number of threads encode at the same time, with any variants and from sources that may overlap. Once all have ended, each has a string of its
own that holds its text, in an allocation that did not exist before and belongs to no other thread. -/
theorem C79_encode_to_string (M : Machine) {k : Nat} (i : Option Isa) (hi : M.Runs base64_encode i) (config : Fin k → Base64.Config) (url pad : Fin k → Bool)
    (hv : ∀ t, Base64.IsVariant (config t) (url t) (pad t)) (m : Mem) (hm : Spec.Tidy m) (p : Fin k → Ptr) (xs : Fin k → List Byte)
    (hr : ∀ t, Spec.Reads m (p t) (xs t)) (hp : ∀ t, (p t).buf < m.nbuf) (hx : ∀ t, (xs t).length ≤ M.P.isizeMax)
    (hl : ∀ t, (Spec.base64 (url t) (pad t) (xs t)).length ≤ M.P.usizeMax / 2)
    {n : Nat} {c : Threads k (fun _ => Owned)} (hs : Threads.Steps n ⟨fun t => Base64.encode_type M.P i (config t) ⟨p t, (xs t).length⟩ .string, m⟩ c)
    (he : ∀ t, (c.thread t).ended = true) :
    ∃ v : Fin k → RVec, (∀ t, c.thread t = .pure (.string (v t)) ∧ Spec.NewVec m c.mem (v t) (Spec.base64 (url t) (pad t) (xs t))) ∧ (∀ t u, t ≠ u → (v t).buf ≠ (v u).buf) ∧
      Spec.Kept m c.mem := by
  have hI := C79_calls M (α := fun _ => Owned) (fun t => .inr (.base64Encode i (config t) ⟨p t, (xs t).length⟩ .string)) m hm (fun t => ⟨hi, _, _, hv t⟩)
    (fun t => ⟨⟨xs t, rfl, hr t⟩, hp t, hx t, fun v h => nomatch h⟩) (fun t u _ b i h => by obtain ⟨v, h, -⟩ := h; cases h)
  obtain ⟨N, hN⟩ := hI
  obtain ⟨-, -, -, -, h⟩ := hN n c hs
  obtain ⟨σ, h1, h2, h3, h4, h5, h6, h7⟩ := h he
  have hrun : ∀ t, ∃ v m', (Base64.encode_type M.P i (config t) ⟨p t, (xs t).length⟩ .string).run m = .ok (.string v) m' ∧ Spec.NewVec m m' v (Spec.base64 (url t) (pad t) (xs t)) := by
    intro t
    obtain ⟨o, m', ho, ht, hw, -⟩ := (Base64.C77_encode_type M.P (Runs.ne_sse2 hi (by decide)) (hv t) m (p t) (xs t) (hr t) (hp t) (hx t) .string).1 (hl t)
    cases o with
    | string v => exact ⟨v, m', ho, hw.1⟩
    | _ => exact absurd ht id
  choose v m' hv1 hv2 using hrun
  refine ⟨fun t => ⟨σ t (v t).buf, (v t).len, (v t).cap⟩, fun t => ?_, fun t u htu => ?_, h5, fun b hb => ⟨h6 b hb, fun i => h7 b i hb fun t h => ?_⟩⟩
  · have := h4 t
    simp only [AnyCall.prog, HeapCall.prog, hv1, Spec.EndedLike'] at this
    exact ⟨this.1, isVec_moved (hv2 t) this.2.2⟩
  · refine h3 t u htu _ _ (hv2 t).1 ?_ (hv2 u).1 ?_
    · simp only [AnyCall.prog, HeapCall.prog, hv1, Spec.nbufAfter]; exact (hv2 t).2.1
    · simp only [AnyCall.prog, HeapCall.prog, hv1, Spec.nbufAfter]; exact (hv2 u).2.1
  · obtain ⟨v, h, -⟩ := h; cases h

/-- C79 for `encode_append`: any number of threads append to vectors of their own, from sources that may overlap but are in none of the vectors. Once all have ended, each thread that had room has a vector with the
old content followed by its text; no two of the vectors are in one allocation. -/
theorem C79_encode_append (M : Machine) {k : Nat} (i : Option Isa) (hi : M.Runs base64_encode i) (config : Fin k → Base64.Config) (url pad : Fin k → Bool)
    (hv : ∀ t, Base64.IsVariant (config t) (url t) (pad t)) (m : Mem) (hm : Spec.Tidy m) (p : Fin k → Ptr) (xs : Fin k → List Byte) (v : Fin k → RVec) (prev : Fin k → List Byte)
    (extra : Fin k → Nat) (hr : ∀ t, Spec.Reads m (p t) (xs t)) (hp : ∀ t, (p t).buf < m.nbuf) (hx : ∀ t, (xs t).length ≤ M.P.isizeMax)
    (hvec : ∀ t, Spec.IsVec m (v t) (prev t)) (hne : ∀ t u, (p t).buf ≠ (v u).buf) (hvv : ∀ t u, t ≠ u → (v t).buf ≠ (v u).buf) (hc : ∀ t, (v t).cap ≤ M.P.isizeMax)
    (hl : ∀ t, (Spec.base64 (url t) (pad t) (xs t)).length ≤ M.P.usizeMax / 2) (hg : ∀ t, Spec.CanGrow M.P (extra t) (v t) (Spec.base64 (url t) (pad t) (xs t)).length)
    {n : Nat} {c : Threads k (fun _ => RVec)} (hs : Threads.Steps n ⟨fun t => Base64.encode_append M.P (extra t) i (config t) ⟨p t, (xs t).length⟩ (v t), m⟩ c)
    (he : ∀ t, (c.thread t).ended = true) :
    ∃ v' : Fin k → RVec, (∀ t, c.thread t = .pure (v' t) ∧ Spec.IsVec c.mem (v' t) (prev t ++ Spec.base64 (url t) (pad t) (xs t))) ∧ (∀ t u, t ≠ u → (v' t).buf ≠ (v' u).buf) ∧
      ∀ b, b < m.nbuf → (∀ t, b ≠ (v t).buf) → ∀ i, c.mem.cell b i = m.cell b i := by
  have hI := C79_calls M (α := fun _ => RVec) (fun t => .inr (.base64EncodeAppend (extra t) i (config t) ⟨p t, (xs t).length⟩ (v t))) m hm (fun t => ⟨hi, _, _, hv t⟩)
    (fun t => ⟨⟨xs t, rfl, hr t⟩, hp t, hx t, fun w h => by cases h; exact ⟨⟨_, hvec t⟩, hne t t, hc t⟩⟩) (fun t u htu b i h => by
      obtain ⟨w, h, rfl⟩ := h; cases h
      rintro (h | ⟨w, h, h'⟩)
      · exact hne u t h.1.symm
      · cases h; exact hvv t u htu h')
  obtain ⟨N, hN⟩ := hI
  obtain ⟨-, -, -, -, h⟩ := hN n c hs
  obtain ⟨σ, h1, h2, h3, h4, h5, h6, h7⟩ := h he
  have hrun := fun t => (Base64.C61_encode_append M.P (extra t) (Runs.ne_sse2 hi (by decide)) (hv t) m (p t) (xs t) (hr t) (hp t) (hx t) (v t) (prev t) (hvec t) (hne t t) (hc t)).1 ⟨hl t, hg t⟩
  choose v' m' hv1 hv2 hv3 using hrun
  have hlt : ∀ t, (v' t).buf < (m' t).nbuf := fun t => (hv2 t).1
  have hcase : ∀ t, (v' t).buf = (v t).buf ∧ σ t (v' t).buf = (v t).buf ∨ m.nbuf ≤ (v' t).buf ∧ m.nbuf ≤ σ t (v' t).buf := by
    intro t
    have := h4 t
    simp only [AnyCall.prog, HeapCall.prog, hv1, Spec.EndedLike'] at this
    rcases (hv3 t).2 with h | h
    · exact .inl ⟨h.1, by rw [h.1]; exact h1 t _ (hvec t).1⟩
    · exact .inr ⟨h.1, (this.2.2 _ h.1 (hlt t)).1⟩
  refine ⟨fun t => ⟨σ t (v' t).buf, (v' t).len, (v' t).cap⟩, fun t => ?_, fun t u htu => ?_, fun b hb hbv i => h7 b i hb fun t h => ?_⟩
  · have := h4 t
    simp only [AnyCall.prog, HeapCall.prog, hv1, Spec.EndedLike'] at this
    refine ⟨this.1, ?_⟩
    rcases hcase t with ⟨e1, e2⟩ | ⟨e1, e2⟩
    · obtain ⟨a1, a2, a3, a4, a5⟩ := hv2 t
      have hcap : (v' t).cap = m.size (v t).buf := by
        rcases (hv3 t).2 with h | h
        · rw [h.2]; exact (hvec t).2.1
        · have := (hvec t).1; omega
      have hsz : c.mem.size (v t).buf = m.size (v t).buf := h6 _ (hvec t).1
      refine ⟨?_, ?_, a3, ?_, fun i hi => ?_⟩
      · show σ t (v' t).buf < _
        rw [e2]; exact Nat.lt_of_lt_of_le (hvec t).1 h5
      · show _ = c.mem.size (σ t (v' t).buf)
        rw [e2, hsz]; exact hcap
      · show _ ≤ c.mem.size (σ t (v' t).buf)
        rw [e2, hsz, ← hcap, a2]; exact a4
      · show c.mem.cell (σ t (v' t).buf) _ = _
        rw [e2, this.2.1 _ _ (hvec t).1 ⟨v t, rfl, rfl⟩, ← e1]; exact a5 i hi
    · exact (isVec_moved ⟨e1, hv2 t⟩ this.2.2).2
  · show σ t (v' t).buf ≠ σ u (v' u).buf
    rcases hcase t with ⟨e1, e2⟩ | ⟨e1, e2⟩ <;> rcases hcase u with ⟨f1, f2⟩ | ⟨f1, f2⟩
    · rw [e2, f2]; exact hvv t u htu
    · have := (hvec t).1; omega
    · have := (hvec u).1; omega
    · refine h3 t u htu _ _ e1 ?_ f1 ?_
      · simp only [AnyCall.prog, HeapCall.prog, hv1, Spec.nbufAfter]; exact hlt t
      · simp only [AnyCall.prog, HeapCall.prog, hv1, Spec.nbufAfter]; exact hlt u
  · obtain ⟨w, h, rfl⟩ := h; cases h; exact hbv t rfl

/-! ### Examples -/

/-- The memory `twoMem`, with nothing beyond its two allocations. -/
def twoTidy : Mem := { twoMem with size := fun b => if b < 2 then 16 else 0 }

/-- Four threads: one decodes `QUJD` into a slice, one into a new vector, one appends the hexadecimal text of the same source to a vector that has to move, one tests the source for ASCII. -/
def fourTy : Fin 4 → Type
  | 0 => Owned
  | 1 => RVec
  | 2 => Bool
  | 3 => Slice
def fourCalls : (t : Fin 4) → AnyCall (fourTy t)
  | 0 => .inr (.base64Decode (some .avx2) Base64.STANDARD ⟨⟨0, 2⟩, 4⟩ .vec)
  | 1 => .inr (.hexEncodeAppend 7 (some .avx2) .lower ⟨⟨0, 2⟩, 4⟩ ⟨1, 14, 16⟩)
  | 2 => .inl (.isAscii true (some .avx2) ⟨⟨0, 2⟩, 4⟩)
  | 3 => .inl (.base64Decode (some .avx2) Base64.STANDARD ⟨⟨0, 2⟩, 4⟩ ⟨⟨0, 8⟩, 3⟩)

example : @Spec.Isolated' 4 fourTy (fun t => (fourCalls t).moves) (fun t => (fourCalls t).prog sender.P) twoTidy (fun t => (fourCalls t).Exclusive) := by
  have hreads : ∀ o n : Nat, o + n ≤ 16 → ∃ xs : List Byte, xs.length = n ∧ Spec.Reads twoTidy ⟨0, o⟩ xs := fun o n h => by
    obtain ⟨xs, h1, h2⟩ := reads_two o n h
    exact ⟨xs, h1, by show _ ≤ 16; rw [h1]; exact h, h2.2⟩
  have hP : 16 ≤ sender.P.isizeMax := by decide
  refine C79_calls sender fourCalls twoTidy ?_ ?_ ?_ ?_
  · intro b hb
    show (if b < 2 then 16 else 0) = 0
    exact if_neg (Nat.not_lt.2 hb)
  · intro t
    match t with
    | 0 => exact ⟨runs_first _ _ _ (by decide) (by decide), false, true, .inl ⟨rfl, rfl, rfl⟩⟩
    | 1 => exact (runs_first _ _ _ (by decide) (by decide) : Dispatch.Runs sender.build sender.cpu hex_encode _)
    | 2 => exact (runs_first _ _ _ (by decide) (by decide) : Dispatch.Runs sender.build sender.cpu unicode_is_ascii _)
    | 3 => exact ⟨runs_first _ _ _ (by decide) (by decide), false, true, .inl ⟨rfl, rfl, rfl⟩⟩
  · intro t
    match t with
    | 0 => exact ⟨hreads 2 4 (by decide), (by decide : (0 : Nat) < 2), Nat.le_trans (by decide) hP, fun v h => nomatch h⟩
    | 1 => exact ⟨hreads 2 4 (by decide), (by decide : (0 : Nat) < 2), Nat.le_trans (by decide) hP, fun v h => by
        cases h
        exact ⟨⟨List.replicate 14 0x20#8, by decide, rfl, by decide, (by decide : 0 + 14 ≤ 16), fun i hi => by
          show some 0x20#8 = some ((List.replicate 14 0x20#8)[i])
          rw [List.getElem_replicate]⟩, (by decide : (0 : Nat) ≠ 1), hP⟩⟩
    | 2 => exact ⟨⟨hreads 2 4 (by decide), show 2 + 0 ≤ 16 by decide, Nat.le_trans (by decide) hP, Nat.le_trans (by decide) hP, trivial⟩, (by decide : (0 : Nat) < 2), (by decide : (0 : Nat) < 2)⟩
    | 3 => exact ⟨⟨hreads 2 4 (by decide), show 8 + 3 ≤ 16 by decide, Nat.le_trans (by decide) hP, Nat.le_trans (by decide) hP,
        fun i j hi hj h => by simp only [Call.shared, Call.exclusive] at hi hj h; omega⟩, (by decide : (0 : Nat) < 2), (by decide : (0 : Nat) < 2)⟩
  · intro t u h b i hw hh
    match t, u with
    | 0, 0 | 1, 1 | 2, 2 | 3, 3 => exact h rfl
    | 0, 1 | 0, 2 | 0, 3 => obtain ⟨_, hv, -⟩ := hw; cases hv
    | 2, 0 | 2, 1 | 2, 3 => obtain ⟨_, h1, h2⟩ := hw; simp only [Call.exclusive] at h1 h2; omega
    | 1, 0 | 1, 2 | 1, 3 =>
      obtain ⟨_, hv, rfl⟩ := hw; cases hv
      rcases hh with hh | hh
      · exact absurd hh.1 (by decide)
      · first
        | (obtain ⟨_, hv, -⟩ := hh; cases hv; done)
        | exact absurd hh.1 (by decide)
    | 3, 0 | 3, 1 | 3, 2 =>
      obtain ⟨rfl, h1, h2⟩ := hw
      simp only [Call.exclusive] at h1 h2
      rcases hh with hh | hh
      · obtain ⟨_, h3, h4⟩ := hh; simp only [Call.shared, HeapCall.shared] at h3 h4; omega
      · first
        | (obtain ⟨_, h3, h4⟩ := hh; simp only [Call.exclusive] at h3 h4; omega)
        | (obtain ⟨_, hv, h3⟩ := hh; cases hv; first | done | exact absurd h3 (by decide))

end Simd
