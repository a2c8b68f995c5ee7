import Verif.Lemmas.TreeAppend
import Verif.Lemmas.BorrowBoxes
/-
`encode_append_vec` and `decode_append_vec` of each crate with borrow trees.
-/
namespace Simd.Tree
open Spec

variable {s s0 s1 s2 : State} {p P : Ptr} {n m t N : Nat} {v : RVec} {xs : List Byte}

theorem ready_read (hR : Ready s p P n xs v) (hm : s1.mem = s.mem) (h0 : AfterCall s s1 (G0 P n p.buf)) : Ready s1 p P n xs v := by
  have e : s1.home v.buf = s.home v.buf := h0.home _ hR.owns.mutable.1
  refine ⟨h0.sound, G0_readable (by rw [hR.place]; exact h0) hR.readable.1 hR.readable, (AfterCall.place h0 hR.readable.1).trans hR.place, hR.len,
    by rw [hm]; exact hR.reads, Own.after hR.owns h0 (fun i _ => .inl (over_out fun h => hR.ne h.1.symm)), hR.le, by rw [e]; exact hR.ne⟩

namespace Base64

theorem encode_append_sim (Pl : Plat) (extra : Nat) (i : Option Isa) (config : Simd.Base64.Config) (hR : Ready s p P n xs v)
    (hF : ∀ d, d ≤ Pl.usizeMax / 2 → ∀ m p q, Reads m p xs → Writable m q d → NoOverlap p n q d → Fine (Simd.Base64.encode Pl i config ⟨p, n⟩ ⟨q, d⟩) m p n q d)
    (hsafe : (Simd.Base64.encode_append_vec Pl extra i config ⟨P, n⟩ { v with buf := s.home v.buf }).run s.mem ≠ .ub) (hne : ∀ m', (Simd.Base64.encode_append_vec Pl extra i config ⟨P, n⟩ { v with buf := s.home v.buf }).run s.mem ≠ .err m') :
    Sim (encode_append_vec Pl extra i config ⟨p, n⟩ v s) ((Simd.Base64.encode_append_vec Pl extra i config ⟨P, n⟩ { v with buf := s.home v.buf }).run s.mem) (AppOk s P n p.buf v) (fun _ => False) := by
  refine append_call (W := id) (F := fun (s : State) (a b : RVec) => b = { a with buf := s.home a.buf }) (fun _ _ _ _ e h => by rw [e]; exact h) hR fun s1 p1 hm hv hR1 => ?_
  rw [← hm, ← hv] at hsafe hne
  rw [← hv]
  unfold Simd.Base64.encode_append_vec at hsafe hne ⊢
  dsimp only at hsafe hne ⊢
  by_cases hn : n = 0
  · rw [if_pos hn, if_pos hn]; exact ⟨rfl, Grown.refl hR1.sound hR1.owns, rfl⟩
  rw [if_neg hn] at hsafe hne
  rw [if_neg hn, if_neg hn]
  refine Sim.bind (Sim.liftO _) ?_
  rintro m _ _ hrun ⟨rfl, rfl, hO⟩
  have hsafe := Prog.safe_next hsafe hrun
  have hne := Prog.noerr_next hne hrun
  refine Sim.bind (Sim.assert _) ?_
  rintro _ _ _ hrun ⟨rfl, ha⟩
  have hsafe := Prog.safe_next hsafe hrun
  have hne := Prog.noerr_next hne hrun
  exact append_enc (K := fun p q => Simd.Base64.encode_auto i p n q config) (.inr rfl) Pl extra hR1
    (fun M Q hx hw ho => Simd.Base64.kern_encode Pl i config hR.len (hF _ (of_decide_eq_true ha)) hO hx hw ho)
    (fun _ _ _ _ => Simd.Base64.ren_encode_auto ..) (fun _ _ => Simd.Base64.uses_encode_auto (by rfl) (by rfl) _ _ _) hsafe hne

theorem decode_append_sim (Pl : Plat) (extra : Nat) {i : Option Isa} (hi : i ≠ some .sse2) (config : Simd.Base64.Config) (hR : Ready s p P n xs v)
    (hsafe : (Simd.Base64.decode_append_vec Pl extra i config ⟨P, n⟩ { v with buf := s.home v.buf }).run s.mem ≠ .ub) :
    Sim (decode_append_vec Pl extra i config ⟨p, n⟩ v s) ((Simd.Base64.decode_append_vec Pl extra i config ⟨P, n⟩ { v with buf := s.home v.buf }).run s.mem) (AppRes s P n p.buf v) (fun _ => False) := by
  refine (append_call (W := Prod.fst) (F := fun (s : State) (a b : RVec × Except Unit Unit) => b.1 = { a.1 with buf := s.home a.1.buf } ∧ a.2 = b.2) (fun _ _ _ _ e h => by rw [e]; exact h) hR fun s1 p1 hm hv hR1 => ?_).mono (fun _ _ _ h => ⟨⟨h.1, h.2.1⟩, h.2.2⟩) fun _ h => h
  rw [← hm, ← hv] at hsafe
  rw [← hv]
  unfold Simd.Base64.decode_append_vec at hsafe ⊢
  dsimp only at hsafe ⊢
  by_cases hn : n = 0
  · rw [if_pos hn, if_pos hn]; exact ⟨rfl, Grown.refl hR1.sound hR1.owns, rfl, rfl⟩
  rw [if_neg hn] at hsafe
  rw [if_neg hn, if_neg hn]
  refine Sim.bind (Sim.attempt (length_sim hi config hR1.sound hR1.readable hR1.place hR1.len hR1.reads)) ?_
  rintro a b s2 hrun (⟨⟨k, m⟩, _, rfl, rfl, ⟨rfl, h0, hm2, hd⟩, -⟩ | ⟨rfl, rfl, ⟨h0, hm2⟩, -⟩)
  · have hsafe := Prog.safe_next hsafe hrun
    have hR2 := ready_read hR1 hm2 h0
    have e2 : s2.home v.buf = s1.home v.buf := h0.home _ hR1.owns.mutable.1
    rw [← e2] at hsafe ⊢
    refine (append_decB (K := fun p q => Simd.Base64.decode_auto i p q k config) (.inl rfl) Pl extra hR2 (fun _ => rfl) (fun _ => rfl) (fun _ => rfl) (fun _ => rfl)
      (fun M Q hx hw ho => Simd.Base64.kern_decode hi config hR.len (Simd.Base64.decoded_length_move config hR.len hR1.reads hx hd) hx hw ho)
      (fun _ _ _ _ => Simd.Base64.ren_decode_auto ..) (fun _ _ => Simd.Base64.uses_decode_auto (by rfl) (by rfl) _ _ _) hsafe).mono (fun _ _ _ h => ⟨Grown.earlier hR1.sound hR1.readable.1 hm2 h0 hR1.owns h.1.1, h.1.2, h.2⟩) fun _ h => h
  · have e2 : s2.home v.buf = s1.home v.buf := h0.home _ hR1.owns.mutable.1
    exact ⟨rfl, Grown.earlier hR1.sound hR1.readable.1 hm2 h0 hR1.owns (Grown.refl h0.sound (ready_read hR1 hm2 h0).owns), by show _ = { v with buf := s2.home v.buf }; rw [e2], rfl⟩

end Base64

namespace Base32

theorem encode_append_sim (Pl : Plat) (w : Bool) (extra : Nat) (i : Option Isa) (config : Simd.Base32.Config) (hR : Ready s p P n xs v)
    (hF : ∀ d, d ≤ Pl.usizeMax / 2 → ∀ m p q, Reads m p xs → Writable m q d → NoOverlap p n q d → Fine (Simd.Base32.encode Pl w i config ⟨p, n⟩ ⟨q, d⟩) m p n q d)
    (hsafe : (Simd.Base32.encode_append_vec Pl w extra i config ⟨P, n⟩ { v with buf := s.home v.buf }).run s.mem ≠ .ub) (hne : ∀ m', (Simd.Base32.encode_append_vec Pl w extra i config ⟨P, n⟩ { v with buf := s.home v.buf }).run s.mem ≠ .err m') :
    Sim (encode_append_vec Pl w extra i config ⟨p, n⟩ v s) ((Simd.Base32.encode_append_vec Pl w extra i config ⟨P, n⟩ { v with buf := s.home v.buf }).run s.mem) (AppOk s P n p.buf v) (fun _ => False) := by
  refine append_call (W := id) (F := fun (s : State) (a b : RVec) => b = { a with buf := s.home a.buf }) (fun _ _ _ _ e h => by rw [e]; exact h) hR fun s1 p1 hm hv hR1 => ?_
  rw [← hm, ← hv] at hsafe hne
  rw [← hv]
  unfold Simd.Base32.encode_append_vec at hsafe hne ⊢
  dsimp only at hsafe hne ⊢
  by_cases hn : n = 0
  · rw [if_pos hn, if_pos hn]; exact ⟨rfl, Grown.refl hR1.sound hR1.owns, rfl⟩
  rw [if_neg hn] at hsafe hne
  rw [if_neg hn, if_neg hn]
  refine Sim.bind (Sim.liftO _) ?_
  rintro m _ _ hrun ⟨rfl, rfl, hO⟩
  have hsafe := Prog.safe_next hsafe hrun
  have hne := Prog.noerr_next hne hrun
  refine Sim.bind (Sim.assert _) ?_
  rintro _ _ _ hrun ⟨rfl, ha⟩
  have hsafe := Prog.safe_next hsafe hrun
  have hne := Prog.noerr_next hne hrun
  exact append_enc (K := fun p q => Simd.Base32.encode_auto w i p n q config.kind config.padding) (.inr rfl) Pl extra hR1
    (fun M Q hx hw ho => Simd.Base32.kern_encode Pl w i config hR.len (hF _ (of_decide_eq_true ha)) hO hx hw ho)
    (fun _ _ _ _ => Simd.Base32.ren_encode_auto ..) (fun _ _ => Simd.Base32.uses_encode_auto (by rfl) (by rfl) _ _ _ _ _) hsafe hne

theorem decode_append_sim (Pl : Plat) (w : Bool) (extra : Nat) {i : Option Isa} (hi : Simd.Base32.Impl i) (config : Simd.Base32.Config) (hR : Ready s p P n xs v)
    (hsafe : (Simd.Base32.decode_append_vec Pl w extra i config ⟨P, n⟩ { v with buf := s.home v.buf }).run s.mem ≠ .ub) :
    Sim (decode_append_vec Pl w extra i config ⟨p, n⟩ v s) ((Simd.Base32.decode_append_vec Pl w extra i config ⟨P, n⟩ { v with buf := s.home v.buf }).run s.mem) (AppRes s P n p.buf v) (fun _ => False) := by
  refine (append_call (W := Prod.fst) (F := fun (s : State) (a b : RVec × Except Unit Unit) => b.1 = { a.1 with buf := s.home a.1.buf } ∧ a.2 = b.2) (fun _ _ _ _ e h => by rw [e]; exact h) hR fun s1 p1 hm hv hR1 => ?_).mono (fun _ _ _ h => ⟨⟨h.1, h.2.1⟩, h.2.2⟩) fun _ h => h
  rw [← hm, ← hv] at hsafe
  rw [← hv]
  unfold Simd.Base32.decode_append_vec at hsafe ⊢
  dsimp only at hsafe ⊢
  by_cases hn : n = 0
  · rw [if_pos hn, if_pos hn]; exact ⟨rfl, Grown.refl hR1.sound hR1.owns, rfl, rfl⟩
  rw [if_neg hn] at hsafe
  rw [if_neg hn, if_neg hn]
  refine Sim.bind (Sim.attempt (length_sim w hi config hR1.sound hR1.readable hR1.place hR1.len hR1.reads)) ?_
  rintro a b s2 hrun (⟨⟨k, m⟩, _, rfl, rfl, ⟨rfl, h0, hm2, hd⟩, -⟩ | ⟨rfl, rfl, ⟨h0, hm2⟩, -⟩)
  · have hsafe := Prog.safe_next hsafe hrun
    have hR2 := ready_read hR1 hm2 h0
    have e2 : s2.home v.buf = s1.home v.buf := h0.home _ hR1.owns.mutable.1
    rw [← e2] at hsafe ⊢
    refine (append_decB (K := fun p q => Simd.Base32.decode_auto w i p k q config.kind) (.inl rfl) Pl extra hR2 (fun _ => rfl) (fun _ => rfl) (fun _ => rfl) (fun _ => rfl)
      (fun M Q hx hw ho => Simd.Base32.kern_decode w hi config hR.len (Simd.Base32.decoded_length_move config.padding hR.len hR1.reads hx hd) hx hw ho)
      (fun _ _ _ _ => Simd.Base32.ren_decode_auto ..) (fun _ _ => Simd.Base32.uses_decode_auto (by rfl) (by rfl) _ _ _ _) hsafe).mono (fun _ _ _ h => ⟨Grown.earlier hR1.sound hR1.readable.1 hm2 h0 hR1.owns h.1.1, h.1.2, h.2⟩) fun _ h => h
  · have e2 : s2.home v.buf = s1.home v.buf := h0.home _ hR1.owns.mutable.1
    exact ⟨rfl, Grown.earlier hR1.sound hR1.readable.1 hm2 h0 hR1.owns (Grown.refl h0.sound (ready_read hR1 hm2 h0).owns), by show _ = { v with buf := s2.home v.buf }; rw [e2], rfl⟩

end Base32

namespace Hex

theorem encode_append_sim (Pl : Plat) (extra : Nat) (i : Option Isa) (case : AsciiCase) (hR : Ready s p P n xs v)
    (hF : ∀ d, d ≤ Pl.usizeMax / 2 → ∀ m p q, Reads m p xs → Writable m q d → NoOverlap p n q d → Fine (Simd.Hex.encode Pl i ⟨p, n⟩ ⟨q, d⟩ case) m p n q d)
    (hsafe : (Simd.Hex.encode_append_vec Pl extra i ⟨P, n⟩ { v with buf := s.home v.buf } case).run s.mem ≠ .ub) (hne : ∀ m', (Simd.Hex.encode_append_vec Pl extra i ⟨P, n⟩ { v with buf := s.home v.buf } case).run s.mem ≠ .err m') :
    Sim (encode_append_vec Pl extra i ⟨p, n⟩ v case s) ((Simd.Hex.encode_append_vec Pl extra i ⟨P, n⟩ { v with buf := s.home v.buf } case).run s.mem) (AppOk s P n p.buf v) (fun _ => False) := by
  refine append_call (W := id) (F := fun (s : State) (a b : RVec) => b = { a with buf := s.home a.buf }) (fun _ _ _ _ e h => by rw [e]; exact h) hR fun s1 p1 hm hv hR1 => ?_
  rw [← hm, ← hv] at hsafe hne
  rw [← hv]
  unfold Simd.Hex.encode_append_vec at hsafe hne ⊢
  dsimp only at hsafe hne ⊢
  by_cases hn : n = 0
  · rw [if_pos hn, if_pos hn]; exact ⟨rfl, Grown.refl hR1.sound hR1.owns, rfl⟩
  rw [if_neg hn] at hsafe hne
  rw [if_neg hn, if_neg hn]
  refine Sim.bind (Sim.liftO _) ?_
  rintro m _ _ hrun ⟨rfl, rfl, hO⟩
  have hsafe := Prog.safe_next hsafe hrun
  have hne := Prog.noerr_next hne hrun
  refine Sim.bind (Sim.assert _) ?_
  rintro _ _ _ hrun ⟨rfl, ha⟩
  have hsafe := Prog.safe_next hsafe hrun
  have hne := Prog.noerr_next hne hrun
  have hm2 : ∀ {m}, Pl.mulU n 2 = some m → m / 2 ≥ n := fun {m} h => by
    unfold Plat.mulU at h
    split at h
    · injection h with h; omega
    · cases h
  exact append_enc (K := fun p q => Simd.Hex.encode_auto i p n q case) (.inr rfl) Pl extra hR1
    (fun M Q hx hw ho => Simd.Hex.kern_encode Pl i case hR.len (hF _ (of_decide_eq_true ha)) (hm2 hO) hx hw ho)
    (fun _ _ _ _ => Simd.Hex.ren_encode_auto ..) (fun _ _ => Simd.Hex.uses_encode_auto (by rfl) (by rfl) _ _ _) hsafe hne

theorem decode_append_sim (Pl : Plat) (extra : Nat) (i : Option Isa) (hR : Ready s p P n xs v)
    (hF : ∀ m p q, Reads m p xs → Writable m q (n / 2) → NoOverlap p n q (n / 2) → Fine (Simd.Hex.decode i ⟨p, n⟩ ⟨q, n / 2⟩) m p n q (n / 2))
    (hsafe : (Simd.Hex.decode_append_vec Pl extra i ⟨P, n⟩ { v with buf := s.home v.buf }).run s.mem ≠ .ub) :
    Sim (decode_append_vec Pl extra i ⟨p, n⟩ v s) ((Simd.Hex.decode_append_vec Pl extra i ⟨P, n⟩ { v with buf := s.home v.buf }).run s.mem) (AppRes s P n p.buf v) (fun _ => False) := by
  refine (append_call (W := Prod.fst) (F := fun (s : State) (a b : RVec × Except Unit Unit) => b.1 = { a.1 with buf := s.home a.1.buf } ∧ a.2 = b.2) (fun _ _ _ _ e h => by rw [e]; exact h) hR fun s1 p1 hm hv hR1 => ?_).mono (fun _ _ _ h => ⟨⟨h.1, h.2.1⟩, h.2.2⟩) fun _ h => h
  rw [← hm, ← hv] at hsafe
  rw [← hv]
  unfold Simd.Hex.decode_append_vec at hsafe ⊢
  dsimp only at hsafe ⊢
  by_cases hn : n = 0
  · rw [if_pos hn, if_pos hn]; exact ⟨rfl, Grown.refl hR1.sound hR1.owns, rfl, rfl⟩
  rw [if_neg hn] at hsafe
  rw [if_neg hn, if_neg hn]
  by_cases he : n % 2 = 0
  · rw [if_pos he] at hsafe
    rw [if_pos he, if_pos he]
    exact (append_decA (K := fun p q => Simd.Hex.decode_auto i p n q) (.inr rfl) Pl extra hR1 (fun _ => rfl) (fun _ => rfl) (fun _ => rfl) (fun _ => rfl)
      (fun M Q hx hw ho => Simd.Hex.kern_decode i hR.len hF (beq_iff_eq.2 he) hx hw ho)
      (fun _ _ _ _ => Simd.Hex.ren_decode_auto ..) (fun _ _ => Simd.Hex.uses_decode_auto (by rfl) (by rfl) _ _) hsafe).mono (fun _ _ _ h => ⟨h.1.1, h.1.2, h.2⟩) fun _ h => h
  · rw [if_neg he, if_neg he]
    exact ⟨rfl, Grown.refl hR1.sound hR1.owns, rfl, rfl⟩

end Hex

end Simd.Tree
