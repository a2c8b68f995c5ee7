import Verif.Lemmas.RunAfter
import Verif.Props.Allocs
import Verif.Spec.Client
import Verif.Spec.Means
/-
What a variable holds after a call that allocates is valid.
-/
namespace Simd
open Dispatch Spec

/-- A result that owns its memory, as a vector. -/
def Owned.rvec : Owned → RVec
  | .bytes b | .str b => ⟨b.ptr.buf, b.len, b.len⟩
  | .vec v | .string v => v

theorem Owned.Owns.new {m m' : Mem} {ys : List Byte} {o : Owned} (h : o.Owns m m' ys) : NewVec m m' o.rvec ys ∧ (Client.IsText o → ValidUtf8 ys) := by
  cases o with
  | bytes b => exact ⟨NewBox.vec h, False.elim⟩
  | str b => exact ⟨NewBox.vec h.1, fun _ => h.2⟩
  | vec v => exact ⟨h.1, False.elim⟩
  | string v => exact ⟨h.1, fun _ => h.2.2⟩

theorem out_ok {α β : Type} {o : Out α} {f : β → α} {Q : β → Mem → Prop} (h : ∃ b m', o = .ok (f b) m' ∧ Q b m') {r : α} {m' : Mem} (hr : o = .ok r m') : ∃ b, r = f b ∧ Q b m' := by
  obtain ⟨b, m1, h1, h2⟩ := h
  rw [h1] at hr
  cases hr
  exact ⟨b, rfl, h2⟩

/-- The contents after a call: those of a new result, or the old ones with something appended. -/
def HeapCall.Content {α : Type} (m m' : Mem) (c : HeapCall α) (xs : List Byte) (r : α) (old : Option Owned) : Prop :=
  match c.vec with
  | none => ∃ ys, HeapMeans xs (some ys) c ∧ NewVec m m' (Client.result old c r).rvec ys ∧ HeapTy (Client.result old c r) c ∧ (Client.IsText (Client.result old c r) → ValidUtf8 ys)
  | some v => ∀ prev, IsVec m v prev → ∃ res, HeapMeans xs res c ∧ (Failed c r ↔ res = none) ∧ IsVec m' (Client.result old c r).rvec (prev ++ res.getD []) ∧
      (Client.AppendsText c → ValidUtf8 (res.getD []))

theorem result_append {old : Option Owned} {r : RVec} : (match old with | some (.string _) => Owned.string r | _ => Owned.vec r).rvec = r := by
  split <;> rfl

theorem HeapCall.content (M : Machine) {α : Type} (c : HeapCall α) (m : Mem) (hr : c.RunsOn M) (hb : c.Borrows M.P m) {xs : List Byte} (hl : xs.length = c.shared.len)
    (hx : Reads m c.shared.ptr xs) {r : α} {m' : Mem} (h : (c.prog M.P).run m = .ok r m') (old : Option Owned) : c.Content m m' xs r old := by
  obtain ⟨-, hn, hP, hv⟩ := hb
  have enc : ∀ {o : Out Owned} {t : List Byte} {b : Nat} {T : Owned → Prop}, ((t.length ≤ b → ∃ r m', o = .ok r m' ∧ T r ∧ r.Owns m m' t ∧ Kept m m') ∧ (b < t.length → o = .panic)) →
      ∀ {r m'}, o = .ok r m' → NewVec m m' r.rvec t ∧ T r ∧ (Client.IsText r → ValidUtf8 t) := fun {o t b T} h {r m'} hr => by
    rcases Nat.lt_or_ge b t.length with hh | hh
    · rw [h.2 hh] at hr; cases hr
    · obtain ⟨_, rfl, h0, h1, -⟩ := out_ok (f := id) (h.1 hh) hr
      exact ⟨h1.new.1, h0, h1.new.2⟩
  have dec : ∀ {o : Out Owned} {D : List Byte → Prop} {T : Owned → Prop}, ((∀ ys, D ys → ∃ r m', o = .ok r m' ∧ T r ∧ r.Owns m m' ys ∧ Kept m m') ∧ ((¬ ∃ ys, D ys) → ∃ m', o = .err m' ∧ Kept m m')) →
      ∀ {r m'}, o = .ok r m' → ∃ ys, D ys ∧ NewVec m m' r.rvec ys ∧ T r ∧ (Client.IsText r → ValidUtf8 ys) := fun {o D T} h {r m'} hr => by
    by_cases hh : ∃ ys, D ys
    · obtain ⟨ys, hy⟩ := hh
      obtain ⟨_, rfl, h0, h1, -⟩ := out_ok (f := id) (h.1 ys hy) hr
      exact ⟨ys, hy, h1.new.1, h0, h1.new.2⟩
    · obtain ⟨_, h1, -⟩ := h.2 hh
      rw [h1] at hr; cases hr
  have app : ∀ {o : Out RVec} {C : Prop} {prev t : List Byte} {n : Nat} {v : RVec}, ((C → ∃ v' m', o = .ok v' m' ∧ IsVec m' v' (prev ++ t) ∧ Grown M.P n m v m' v') ∧ (¬ C → o = .panic)) →
      (∀ c ∈ t, c.toNat < 0x80) → ∀ {r m'}, o = .ok r m' → (False ↔ some t = none) ∧ IsVec m' (match old with | some (.string _) => Owned.string r | _ => Owned.vec r).rvec (prev ++ t) ∧ (True → ValidUtf8 t) :=
    fun {o C prev t n v} h ht {r m'} hr => by
      by_cases hC : C
      · obtain ⟨_, rfl, h1, -⟩ := out_ok (f := id) (h.1 hC) hr
        exact ⟨⟨False.elim, nofun⟩, by rw [result_append]; exact h1, fun _ => .ascii ht⟩
      · rw [h.2 hC] at hr; cases hr
  cases c with
  | base64Encode i config src ty =>
    obtain ⟨hi, url, pad, hc⟩ := hr
    obtain ⟨p, _⟩ := src
    dsimp only [shared] at *; subst hl
    exact ⟨_, ⟨url, pad, hc, rfl⟩, enc (Base64.C77_encode_type M.P (Runs.ne_sse2 hi (by decide)) hc m p xs hx hn hP ty) h⟩
  | base64Decode i config src ty =>
    obtain ⟨hi, url, pad, hc⟩ := hr
    obtain ⟨p, _⟩ := src
    dsimp only [shared] at *; subst hl
    obtain ⟨ys, hy, h1⟩ := dec (Base64.C77_decode_type M.P (Runs.ne_sse2 hi (by decide)) hc m p xs hx hn hP ty) h
    exact ⟨ys, ⟨url, pad, hc, hy⟩, h1⟩
  | base64EncodeAppend extra i config src v =>
    obtain ⟨hi, url, pad, hc⟩ := hr
    obtain ⟨p, _⟩ := src
    obtain ⟨-, hv2, hv3⟩ := hv v rfl
    dsimp only [shared] at *; subst hl
    exact fun prev hv1 => ⟨_, ⟨url, pad, hc, rfl⟩, app (Base64.C61_encode_append M.P extra (Runs.ne_sse2 hi (by decide)) hc m p xs hx hn hP v prev hv1 hv2 hv3) (fun c hc => (Base64.C17_alphabet url pad xs c hc).2) h⟩
  | base64DecodeAppend extra i config src v =>
    obtain ⟨hi, url, pad, hc⟩ := hr
    obtain ⟨p, _⟩ := src
    obtain ⟨-, hv2, hv3⟩ := hv v rfl
    dsimp only [shared] at *; subst hl
    intro prev hv1
    have h' := Base64.C61_decode_append_any M.P extra (Runs.ne_sse2 hi (by decide)) hc m p xs hx hn v prev hv1 hv2 hv3
    by_cases hh : ∃ ys, Spec.base64 url pad ys = xs
    · obtain ⟨ys, hy⟩ := hh
      by_cases hg : Spec.CanGrow M.P extra v ys.length
      · obtain ⟨v', rfl, h1, -⟩ := out_ok (f := fun v => (v, Except.ok ())) ((h'.1 ys hy).1 hg) h
        exact ⟨some ys, ⟨url, pad, hc, hy⟩, ⟨nofun, nofun⟩, h1, False.elim⟩
      · exact absurd (h.symm.trans ((h'.1 ys hy).2 hg)) nofun
    · rcases h'.2 hh with h2 | h2
      · obtain ⟨v', rfl, h1, -⟩ := out_ok (f := fun v => (v, Except.error ())) h2 h
        exact ⟨none, ⟨url, pad, hc, hh⟩, ⟨fun _ => rfl, fun _ => rfl⟩, by rw [Option.getD_none, List.append_nil]; exact h1, False.elim⟩
      · exact absurd (h.symm.trans h2.1) nofun
  | forgiving extra fi di src =>
    obtain ⟨p, _⟩ := src
    dsimp only [shared] at *; subst hl
    have h' := Base64.C61_forgiving_any M.P extra fi (Runs.ne_sse2 hr.2 (by decide)) m p xs hx hn hP
    by_cases hh : (∃ x ∈ xs, Spec.isWs x = true) ∧ M.P.isizeMax < xs.length + extra
    · exact absurd (h.symm.trans (h'.1 hh)) nofun
    · cases hf : Spec.forgivingDecode xs with
      | some ys =>
        obtain ⟨_, rfl, h1, -⟩ := out_ok (f := id) ((h'.2 hh).1 ys hf) h
        exact ⟨ys, hf.symm, h1, trivial, False.elim⟩
      | none =>
        obtain ⟨_, h1, -⟩ := (h'.2 hh).2 hf
        exact absurd (h.symm.trans h1) nofun
  | base32Encode w i config src ty =>
    obtain ⟨rfl, hi, hex, pad, hc⟩ := hr
    obtain ⟨p, _⟩ := src
    dsimp only [shared] at *; subst hl
    exact ⟨_, ⟨hex, pad, hc, rfl⟩, enc (Base32.C77_encode_type M.P M.wasm (Base32.impl_of_runs hi (by decide) (by decide)) hc m p xs hx hn hP ty) h⟩
  | base32Decode w i config src ty =>
    obtain ⟨rfl, hi, hex, pad, hc⟩ := hr
    obtain ⟨p, _⟩ := src
    dsimp only [shared] at *; subst hl
    obtain ⟨ys, hy, h1⟩ := dec (Base32.C77_decode_type M.P M.wasm (Base32.impl_of_runs hi (by decide) (by decide)) hc m p xs hx hn hP ty) h
    exact ⟨ys, ⟨hex, pad, hc, hy⟩, h1⟩
  | base32EncodeAppend w extra i config src v =>
    obtain ⟨rfl, hi, hex, pad, hc⟩ := hr
    obtain ⟨p, _⟩ := src
    obtain ⟨-, hv2, hv3⟩ := hv v rfl
    dsimp only [shared] at *; subst hl
    exact fun prev hv1 => ⟨_, ⟨hex, pad, hc, rfl⟩, app (Base32.C61_encode_append M.P M.wasm extra (Base32.impl_of_runs hi (by decide) (by decide)) hc m p xs hx hn hP v prev hv1 hv2 hv3)
      (fun c hc => (Base32.C28_alphabet hex pad xs c hc).2) h⟩
  | base32DecodeAppend w extra i config src v =>
    obtain ⟨rfl, hi, hex, pad, hc⟩ := hr
    obtain ⟨p, _⟩ := src
    obtain ⟨-, hv2, hv3⟩ := hv v rfl
    dsimp only [shared] at *; subst hl
    intro prev hv1
    have h' := Base32.C61_decode_append_any M.P M.wasm extra (Base32.impl_of_runs hi (by decide) (by decide)) hc m p xs hx hn v prev hv1 hv2 hv3
    by_cases hh : ∃ ys, Spec.base32 hex pad ys = xs
    · obtain ⟨ys, hy⟩ := hh
      by_cases hg : Spec.CanGrow M.P extra v ys.length
      · obtain ⟨v', rfl, h1, -⟩ := out_ok (f := fun v => (v, Except.ok ())) ((h'.1 ys hy).1 hg) h
        exact ⟨some ys, ⟨hex, pad, hc, hy⟩, ⟨nofun, nofun⟩, h1, False.elim⟩
      · exact absurd (h.symm.trans ((h'.1 ys hy).2 hg)) nofun
    · rcases h'.2 hh with h2 | h2
      · obtain ⟨v', rfl, h1, -⟩ := out_ok (f := fun v => (v, Except.error ())) h2 h
        exact ⟨none, ⟨hex, pad, hc, hh⟩, ⟨fun _ => rfl, fun _ => rfl⟩, by rw [Option.getD_none, List.append_nil]; exact h1, False.elim⟩
      · exact absurd (h.symm.trans h2.1) nofun
  | hexEncode i case src ty =>
    obtain ⟨p, _⟩ := src
    dsimp only [shared] at *; subst hl
    exact ⟨_, rfl, enc (Hex.C77_encode_type M.P i case m p xs hx hn hP ty) h⟩
  | hexDecode i src ty =>
    obtain ⟨p, _⟩ := src
    dsimp only [shared] at *; subst hl
    exact dec (Hex.C77_decode_type M.P i m p xs hx hn hP ty) h
  | hexEncodeAppend extra i case src v =>
    obtain ⟨p, _⟩ := src
    obtain ⟨-, hv2, hv3⟩ := hv v rfl
    dsimp only [shared] at *; subst hl
    exact fun prev hv1 => ⟨_, rfl, app (Hex.C61_encode_append M.P extra i case m p xs hx hn hP v prev hv1 hv2 hv3) (Hex.C37_ascii (case == .upper) xs) h⟩
  | hexDecodeAppend extra i src v =>
    obtain ⟨p, _⟩ := src
    obtain ⟨-, hv2, hv3⟩ := hv v rfl
    dsimp only [shared] at *; subst hl
    intro prev hv1
    have h' := Hex.C61_decode_append_any M.P extra i m p xs hx hn v prev hv1 hv2 hv3
    by_cases hg : xs.length % 2 = 0 ∧ ¬ Spec.CanGrow M.P extra v (xs.length / 2)
    · exact absurd (h.symm.trans (h'.1 hg)) nofun
    · by_cases hh : ∃ ys, Spec.IsHexOf xs ys
      · obtain ⟨ys, hy⟩ := hh
        obtain ⟨v', rfl, h1, -⟩ := out_ok (f := fun v => (v, Except.ok ())) ((h'.2 hg).1 ys hy) h
        exact ⟨some ys, hy, ⟨nofun, nofun⟩, h1, False.elim⟩
      · obtain ⟨v', rfl, h1, -⟩ := out_ok (f := fun v => (v, Except.error ())) ((h'.2 hg).2 hh) h
        exact ⟨none, hh, ⟨fun _ => rfl, fun _ => rfl⟩, by rw [Option.getD_none, List.append_nil]; exact h1, False.elim⟩

theorem HeapCall.content_err (M : Machine) {α : Type} (c : HeapCall α) (m : Mem) (hr : c.RunsOn M) (hb : c.Borrows M.P m) {xs : List Byte} (hl : xs.length = c.shared.len)
    (hx : Reads m c.shared.ptr xs) {m' : Mem} (h : (c.prog M.P).run m = .err m') : HeapMeans xs none c := by
  obtain ⟨-, hn, hP, hv⟩ := hb
  have enc : ∀ {β : Type} {o : Out β} {C : Prop} {Q : β → Mem → Prop}, ((C → ∃ r m', o = .ok r m' ∧ Q r m') ∧ (¬ C → o = .panic)) → o ≠ .err m' := fun {β o C Q} h hr => by
    by_cases hC : C
    · obtain ⟨_, _, h1, -⟩ := h.1 hC; rw [h1] at hr; cases hr
    · rw [h.2 hC] at hr; cases hr
  have enc' : ∀ {β : Type} {o : Out β} {t b : Nat} {Q : β → Mem → Prop}, ((t ≤ b → ∃ r m', o = .ok r m' ∧ Q r m') ∧ (b < t → o = .panic)) → o ≠ .err m' := fun h =>
    enc ⟨h.1, fun hn => h.2 (by omega)⟩
  have dec : ∀ {o : Out Owned} {D : List Byte → Prop} {Q : Owned → List Byte → Mem → Prop} {K : Mem → Prop}, ((∀ ys, D ys → ∃ r m', o = .ok r m' ∧ Q r ys m') ∧ ((¬ ∃ ys, D ys) → ∃ m', o = .err m' ∧ K m')) →
      o = .err m' → ¬ ∃ ys, D ys := fun h hr ⟨ys, hy⟩ => by
    obtain ⟨_, _, h1, -⟩ := h.1 ys hy
    rw [h1] at hr; cases hr
  cases c with
  | base64Encode i config src ty =>
    obtain ⟨hi, url, pad, hc⟩ := hr
    obtain ⟨p, _⟩ := src
    dsimp only [shared] at *; subst hl
    exact absurd h (enc' (Base64.C77_encode_type M.P (Runs.ne_sse2 hi (by decide)) hc m p xs hx hn hP ty))
  | base64Decode i config src ty =>
    obtain ⟨hi, url, pad, hc⟩ := hr
    obtain ⟨p, _⟩ := src
    dsimp only [shared] at *; subst hl
    exact ⟨url, pad, hc, dec (Base64.C77_decode_type M.P (Runs.ne_sse2 hi (by decide)) hc m p xs hx hn hP ty) h⟩
  | base64EncodeAppend extra i config src v =>
    obtain ⟨hi, url, pad, hc⟩ := hr
    obtain ⟨p, _⟩ := src
    obtain ⟨⟨prev, hv1⟩, hv2, hv3⟩ := hv v rfl
    dsimp only [shared] at *; subst hl
    exact absurd h (enc (Base64.C61_encode_append M.P extra (Runs.ne_sse2 hi (by decide)) hc m p xs hx hn hP v prev hv1 hv2 hv3))
  | base64DecodeAppend extra i config src v =>
    obtain ⟨hi, url, pad, hc⟩ := hr
    obtain ⟨p, _⟩ := src
    obtain ⟨⟨prev, hv1⟩, hv2, hv3⟩ := hv v rfl
    dsimp only [shared] at *; subst hl
    have h' := Base64.C61_decode_append_any M.P extra (Runs.ne_sse2 hi (by decide)) hc m p xs hx hn v prev hv1 hv2 hv3
    refine ⟨url, pad, hc, fun ⟨ys, hy⟩ => ?_⟩
    exact absurd h (enc (Q := fun _ _ => True) ⟨fun g => let ⟨_, m1, h1, _⟩ := (h'.1 ys hy).1 g; ⟨_, m1, h1, trivial⟩, (h'.1 ys hy).2⟩)
  | forgiving extra fi di src =>
    obtain ⟨p, _⟩ := src
    dsimp only [shared] at *; subst hl
    have h' := Base64.C61_forgiving_any M.P extra fi (Runs.ne_sse2 hr.2 (by decide)) m p xs hx hn hP
    by_cases hh : (∃ x ∈ xs, Spec.isWs x = true) ∧ M.P.isizeMax < xs.length + extra
    · exact absurd (h.symm.trans (h'.1 hh)) nofun
    · cases hf : Spec.forgivingDecode xs with
      | some ys =>
        obtain ⟨_, _, h1, -⟩ := (h'.2 hh).1 ys hf
        exact absurd (h.symm.trans h1) nofun
      | none => exact hf.symm
  | base32Encode w i config src ty =>
    obtain ⟨rfl, hi, hex, pad, hc⟩ := hr
    obtain ⟨p, _⟩ := src
    dsimp only [shared] at *; subst hl
    exact absurd h (enc' (Base32.C77_encode_type M.P M.wasm (Base32.impl_of_runs hi (by decide) (by decide)) hc m p xs hx hn hP ty))
  | base32Decode w i config src ty =>
    obtain ⟨rfl, hi, hex, pad, hc⟩ := hr
    obtain ⟨p, _⟩ := src
    dsimp only [shared] at *; subst hl
    exact ⟨hex, pad, hc, dec (Base32.C77_decode_type M.P M.wasm (Base32.impl_of_runs hi (by decide) (by decide)) hc m p xs hx hn hP ty) h⟩
  | base32EncodeAppend w extra i config src v =>
    obtain ⟨rfl, hi, hex, pad, hc⟩ := hr
    obtain ⟨p, _⟩ := src
    obtain ⟨⟨prev, hv1⟩, hv2, hv3⟩ := hv v rfl
    dsimp only [shared] at *; subst hl
    exact absurd h (enc (Base32.C61_encode_append M.P M.wasm extra (Base32.impl_of_runs hi (by decide) (by decide)) hc m p xs hx hn hP v prev hv1 hv2 hv3))
  | base32DecodeAppend w extra i config src v =>
    obtain ⟨rfl, hi, hex, pad, hc⟩ := hr
    obtain ⟨p, _⟩ := src
    obtain ⟨⟨prev, hv1⟩, hv2, hv3⟩ := hv v rfl
    dsimp only [shared] at *; subst hl
    have h' := Base32.C61_decode_append_any M.P M.wasm extra (Base32.impl_of_runs hi (by decide) (by decide)) hc m p xs hx hn v prev hv1 hv2 hv3
    refine ⟨hex, pad, hc, fun ⟨ys, hy⟩ => ?_⟩
    exact absurd h (enc (Q := fun _ _ => True) ⟨fun g => let ⟨_, m1, h1, _⟩ := (h'.1 ys hy).1 g; ⟨_, m1, h1, trivial⟩, (h'.1 ys hy).2⟩)
  | hexEncode i case src ty =>
    obtain ⟨p, _⟩ := src
    dsimp only [shared] at *; subst hl
    exact absurd h (enc' (Hex.C77_encode_type M.P i case m p xs hx hn hP ty))
  | hexDecode i src ty =>
    obtain ⟨p, _⟩ := src
    dsimp only [shared] at *; subst hl
    exact dec (Hex.C77_decode_type M.P i m p xs hx hn hP ty) h
  | hexEncodeAppend extra i case src v =>
    obtain ⟨p, _⟩ := src
    obtain ⟨⟨prev, hv1⟩, hv2, hv3⟩ := hv v rfl
    dsimp only [shared] at *; subst hl
    exact absurd h (enc (Hex.C61_encode_append M.P extra i case m p xs hx hn hP v prev hv1 hv2 hv3))
  | hexDecodeAppend extra i src v =>
    obtain ⟨p, _⟩ := src
    obtain ⟨⟨prev, hv1⟩, hv2, hv3⟩ := hv v rfl
    dsimp only [shared] at *; subst hl
    have h' := Hex.C61_decode_append_any M.P extra i m p xs hx hn v prev hv1 hv2 hv3
    by_cases hg : xs.length % 2 = 0 ∧ ¬ Spec.CanGrow M.P extra v (xs.length / 2)
    · exact absurd (h.symm.trans (h'.1 hg)) nofun
    · rintro ⟨ys, hy⟩
      obtain ⟨_, _, h1, -⟩ := (h'.2 hg).1 ys hy
      exact absurd (h.symm.trans h1) nofun

end Simd
