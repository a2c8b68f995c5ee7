import Verif.Lemmas.TreeBoxFns
import Verif.Lemmas.TreeFns2
import Verif.Lemmas.BorrowBoxes
/-
`encode_to_boxed_str` and `decode_to_boxed_bytes` of each crate with borrow trees.
-/
namespace Simd.Tree
open Spec
open Borrow (Good1 Good2 noOverlap_pt noOverlap_new alloc_ok)

variable {α β : Type} {s s0 s1 s2 : State} {p P : Ptr} {n m t N : Nat} {G : Nat → Nat → Loan} {xs : List Byte}

/-- What a function that returns a box has done, by its end. -/
abbrev BoxOk (s : State) (P : Ptr) (n t : Nat) (r r' : Slice) (s' : State) : Prop := AfterCall s s' (G0 P n t) ∧ NewBox s s' r r'
abbrev BoxErr (s : State) (P : Ptr) (n t : Nat) (s' : State) : Prop := AfterCall s s' (G0 P n t) ∧ Clear s s'

theorem NewOwner.earlier {q : Ptr} (h : NewOwner s s2 q m) (hm : s.mem = s0.mem) (hn : s0.next ≤ s.next) : NewOwner s0 s2 q m :=
  ⟨Nat.le_trans hn h.lo, h.hi, h.off, by rw [← hm]; exact h.home, by rw [← hm]; exact h.nbuf, by rw [← hm]; exact h.size, h.mutable⟩

/-- The source had been read before. -/
theorem BoxOk.earlier {r r' : Slice} (h : BoxOk s P n t r r' s2) (hm : s.mem = s0.mem) (h0 : AfterCall s0 s (G0 P n t)) (ht : t < s0.next) : BoxOk s0 P n t r r' s2 := by
  obtain ⟨h1, h2, h3⟩ := h
  rw [hm] at h3
  exact ⟨h0.trans h1, h2.earlier hm h0.next, h3⟩

theorem BoxErr.earlier (h : BoxErr s P n t s2) (hm : s.mem = s0.mem) (h0 : AfterCall s0 s (G0 P n t)) (ht : t < s0.next) : BoxErr s0 P n t s2 :=
  ⟨h0.trans h.1, fun b hb => h.2 b (by rw [hm]; exact hb)⟩

theorem clear_same (hm : s1.mem = s.mem) : Clear s s1 := fun b hb hb' => by rw [hm] at hb'; omega

theorem boxErr_read (hm : s1.mem = s.mem) (h : AfterCall s s1 (G0 P n t)) : BoxErr s P n t s1 := ⟨h, clear_same hm⟩

theorem empty_sim (hs : Sound s) {E : State → Prop} : Sim (prog box_empty s) (box_empty.run s.mem) (fun r r' s' => BoxOk s P n t r r' s') E :=
  (box_empty_sim hs).mono (fun _ _ _ h => ⟨h.2.1.weaken nothing_or, h.2.2, h.1⟩) fun _ h => h

namespace Base64

/-- Reading the length leaves the memory as it is. -/
theorem length_sim {i : Option Isa} (hi : i ≠ some .sse2) (config : Simd.Base64.Config) (hs : Sound s) (hr : Readable s p n) (eP : place s p = P) (hl : xs.length = n) (hx : Reads s.mem P xs) :
    Sim (decoded_length ⟨p, n⟩ config s) ((Simd.Base64.decoded_length ⟨P, n⟩ config).run s.mem) (fun v v' s' => v = v' ∧ AfterCall s s' (G0 P n p.buf) ∧ s'.mem = s.mem ∧ (Simd.Base64.decoded_length ⟨P, n⟩ config).run s.mem = .ok v s.mem)
      (fun s' => AfterCall s s' (G0 P n p.buf) ∧ s'.mem = s.mem) := by
  refine (decoded_length_sim1 config hs hr eP (Simd.Base64.good_length hi config hl hx)).withRun.mono ?_ fun s' h => ⟨h.1, ?_⟩
  · rintro v _ s' ⟨⟨rfl, h0⟩, hrun⟩
    have h := Simd.Base64.decoded_length_move config hl hx hx hrun
    refine ⟨rfl, h0, ?_, h⟩
    rw [hrun] at h
    injection h with _ h3
  · have h2 := h.2
    subst hl
    rw [Simd.Base64.decoded_length_run config _ _ xs hx.has] at h2
    cases hd : Simd.Base64.dlen config.extra xs <;> rw [hd] at h2
    · injection h2 with h3; exact h3.symm
    · cases h2

theorem encode_box_sim (Pl : Plat) (i : Option Isa) (config : Simd.Base64.Config) (hs : Sound s) (hr : Readable s p n) (eP : place s p = P) (hP : P.buf < s.mem.nbuf) (hl : xs.length = n)
    (hx : Reads s.mem P xs) (hF : ∀ d, d ≤ Pl.isizeMax → ∀ m p q, Reads m p xs → Writable m q d → NoOverlap p n q d → Fine (Simd.Base64.encode Pl i config ⟨p, n⟩ ⟨q, d⟩) m p n q d)
    (hsafe : (Simd.Base64.encode_to_boxed_str Pl i config ⟨P, n⟩).run s.mem ≠ .ub) (hne : ∀ m', (Simd.Base64.encode_to_boxed_str Pl i config ⟨P, n⟩).run s.mem ≠ .err m') :
    Sim (encode_to_boxed_str Pl i config ⟨p, n⟩ s) ((Simd.Base64.encode_to_boxed_str Pl i config ⟨P, n⟩).run s.mem) (BoxOk s P n p.buf) (BoxErr s P n p.buf) := by
  refine box_call hs hr eP (newBox_back s) fun s1 p1 hm hs1 hr1 hp1 eP1 => ?_
  rw [← hm] at hx hP hsafe hne
  unfold Simd.Base64.encode_to_boxed_str at hsafe hne ⊢
  dsimp only at hsafe hne ⊢
  by_cases hn : n = 0
  · rw [if_pos hn, if_pos hn]; exact empty_sim hs1
  rw [if_neg hn] at hsafe hne
  rw [if_neg hn, if_neg hn]
  refine Sim.bind (Sim.liftO _) ?_
  rintro m _ _ hrun ⟨rfl, rfl, hO⟩
  have hsafe := Prog.safe_next hsafe hrun
  have hne := Prog.noerr_next hne hrun
  refine Sim.bind (Sim.assert _) ?_
  rintro _ _ _ hrun ⟨rfl, -⟩
  have hsafe := Prog.safe_next hsafe hrun
  have hne := Prog.noerr_next hne hrun
  have hb := alloc_ok (Prog.safe_head hsafe)
  exact boxE (K := fun p q => Simd.Base64.encode_auto i p n q config) (.inr rfl) Pl hs1 hr1 hp1 eP1 hP
    (Simd.Base64.kern_encode Pl i config hl (hF _ hb.2) hO (hx.alloc hP _) (writable_alloc _ _) (noOverlap_new hP))
    (fun _ _ _ => Simd.Base64.ren_encode_auto ..) (fun _ _ => Simd.Base64.uses_encode_auto (by rfl) (by rfl) _ _ _) hsafe hne

theorem decode_box_sim (Pl : Plat) {i : Option Isa} (hi : i ≠ some .sse2) (config : Simd.Base64.Config) (hs : Sound s) (hr : Readable s p n) (eP : place s p = P) (hP : P.buf < s.mem.nbuf) (hl : xs.length = n)
    (hx : Reads s.mem P xs) (hsafe : (Simd.Base64.decode_to_boxed_bytes Pl i config ⟨P, n⟩).run s.mem ≠ .ub) :
    Sim (decode_to_boxed_bytes Pl i config ⟨p, n⟩ s) ((Simd.Base64.decode_to_boxed_bytes Pl i config ⟨P, n⟩).run s.mem) (BoxOk s P n p.buf) (BoxErr s P n p.buf) := by
  refine box_call hs hr eP (newBox_back s) fun s1 p1 hm hs1 hr1 hp1 eP1 => ?_
  rw [← hm] at hx hP hsafe
  unfold Simd.Base64.decode_to_boxed_bytes at hsafe ⊢
  dsimp only at hsafe ⊢
  by_cases hn : n = 0
  · rw [if_pos hn, if_pos hn]; exact empty_sim hs1
  rw [if_neg hn] at hsafe
  rw [if_neg hn, if_neg hn]
  refine Sim.bind ((length_sim hi config hs1 hr1 eP1 hl hx).mono (fun _ _ _ h => h) fun s2 h => boxErr_read h.2 h.1) ?_
  rintro ⟨k, m⟩ _ s2 hrun ⟨rfl, h0, hm2, hd⟩
  have hsafe := Prog.safe_next hsafe hrun
  have hr2 := G0_readable (by rw [eP1]; exact h0) hp1 hr1
  rw [← hm2] at hx hP hd
  refine (boxB (K := fun p q => Simd.Base64.decode_auto i p q k config) (.inl rfl) Pl h0.sound hr2 (Nat.lt_of_lt_of_le hp1 h0.next) ((AfterCall.place h0 hp1).trans eP1) hP
    (Simd.Base64.kern_decode hi config hl (Simd.Base64.decoded_length_move config hl hx (hx.alloc hP m) hd) (hx.alloc hP m) (writable_alloc _ _) (noOverlap_new hP))
    (fun _ _ _ => Simd.Base64.ren_decode_auto ..) (fun _ _ => Simd.Base64.uses_decode_auto (by rfl) (by rfl) _ _ _) hsafe).mono (fun _ _ _ h => BoxOk.earlier h hm2 h0 hp1) fun _ h => BoxErr.earlier h hm2 h0 hp1

end Base64

namespace Base32

/-- Reading the length leaves the memory as it is. -/
theorem length_sim (w : Bool) {i : Option Isa} (hi : Simd.Base32.Impl i) (config : Simd.Base32.Config) (hs : Sound s) (hr : Readable s p n) (eP : place s p = P) (hl : xs.length = n) (hx : Reads s.mem P xs) :
    Sim (decoded_length ⟨p, n⟩ config.padding s) ((Simd.Base32.decoded_length ⟨P, n⟩ config.padding).run s.mem) (fun v v' s' => v = v' ∧ AfterCall s s' (G0 P n p.buf) ∧ s'.mem = s.mem ∧ (Simd.Base32.decoded_length ⟨P, n⟩ config.padding).run s.mem = .ok v s.mem)
      (fun s' => AfterCall s s' (G0 P n p.buf) ∧ s'.mem = s.mem) := by
  refine (decoded_length_sim1 config.padding hs hr eP (Simd.Base32.good_length w hi config hl hx)).withRun.mono ?_ fun s' h => ⟨h.1, ?_⟩
  · rintro v _ s' ⟨⟨rfl, h0⟩, hrun⟩
    have h := Simd.Base32.decoded_length_move config.padding hl hx hx hrun
    refine ⟨rfl, h0, ?_, h⟩
    rw [hrun] at h
    injection h with _ h3
  · have h2 := h.2
    subst hl
    rw [Simd.Base32.decoded_length_run config.padding _ _ xs hx.has] at h2
    cases hd : Simd.Base32.dlen config.padding xs <;> rw [hd] at h2
    · injection h2 with h3; exact h3.symm
    · cases h2

theorem encode_box_sim (Pl : Plat) (w : Bool) (i : Option Isa) (config : Simd.Base32.Config) (hs : Sound s) (hr : Readable s p n) (eP : place s p = P) (hP : P.buf < s.mem.nbuf) (hl : xs.length = n)
    (hx : Reads s.mem P xs) (hF : ∀ d, d ≤ Pl.isizeMax → ∀ m p q, Reads m p xs → Writable m q d → NoOverlap p n q d → Fine (Simd.Base32.encode Pl w i config ⟨p, n⟩ ⟨q, d⟩) m p n q d)
    (hsafe : (Simd.Base32.encode_to_boxed_str Pl w i config ⟨P, n⟩).run s.mem ≠ .ub) (hne : ∀ m', (Simd.Base32.encode_to_boxed_str Pl w i config ⟨P, n⟩).run s.mem ≠ .err m') :
    Sim (encode_to_boxed_str Pl w i config ⟨p, n⟩ s) ((Simd.Base32.encode_to_boxed_str Pl w i config ⟨P, n⟩).run s.mem) (BoxOk s P n p.buf) (BoxErr s P n p.buf) := by
  refine box_call hs hr eP (newBox_back s) fun s1 p1 hm hs1 hr1 hp1 eP1 => ?_
  rw [← hm] at hx hP hsafe hne
  unfold Simd.Base32.encode_to_boxed_str at hsafe hne ⊢
  dsimp only at hsafe hne ⊢
  by_cases hn : n = 0
  · rw [if_pos hn, if_pos hn]; exact empty_sim hs1
  rw [if_neg hn] at hsafe hne
  rw [if_neg hn, if_neg hn]
  refine Sim.bind (Sim.liftO _) ?_
  rintro m _ _ hrun ⟨rfl, rfl, hO⟩
  have hsafe := Prog.safe_next hsafe hrun
  have hne := Prog.noerr_next hne hrun
  refine Sim.bind (Sim.assert _) ?_
  rintro _ _ _ hrun ⟨rfl, -⟩
  have hsafe := Prog.safe_next hsafe hrun
  have hne := Prog.noerr_next hne hrun
  have hb := alloc_ok (Prog.safe_head hsafe)
  exact boxE (K := fun p q => Simd.Base32.encode_auto w i p n q config.kind config.padding) (.inr rfl) Pl hs1 hr1 hp1 eP1 hP
    (Simd.Base32.kern_encode Pl w i config hl (hF _ hb.2) hO (hx.alloc hP _) (writable_alloc _ _) (noOverlap_new hP))
    (fun _ _ _ => Simd.Base32.ren_encode_auto ..) (fun _ _ => Simd.Base32.uses_encode_auto (by rfl) (by rfl) _ _ _ _ _) hsafe hne

theorem decode_box_sim (Pl : Plat) (w : Bool) {i : Option Isa} (hi : Simd.Base32.Impl i) (config : Simd.Base32.Config) (hs : Sound s) (hr : Readable s p n) (eP : place s p = P) (hP : P.buf < s.mem.nbuf) (hl : xs.length = n)
    (hx : Reads s.mem P xs) (hsafe : (Simd.Base32.decode_to_boxed_bytes Pl w i config ⟨P, n⟩).run s.mem ≠ .ub) :
    Sim (decode_to_boxed_bytes Pl w i config ⟨p, n⟩ s) ((Simd.Base32.decode_to_boxed_bytes Pl w i config ⟨P, n⟩).run s.mem) (BoxOk s P n p.buf) (BoxErr s P n p.buf) := by
  refine box_call hs hr eP (newBox_back s) fun s1 p1 hm hs1 hr1 hp1 eP1 => ?_
  rw [← hm] at hx hP hsafe
  unfold Simd.Base32.decode_to_boxed_bytes at hsafe ⊢
  dsimp only at hsafe ⊢
  by_cases hn : n = 0
  · rw [if_pos hn, if_pos hn]; exact empty_sim hs1
  rw [if_neg hn] at hsafe
  rw [if_neg hn, if_neg hn]
  refine Sim.bind ((length_sim w hi config hs1 hr1 eP1 hl hx).mono (fun _ _ _ h => h) fun s2 h => boxErr_read h.2 h.1) ?_
  rintro ⟨k, m⟩ _ s2 hrun ⟨rfl, h0, hm2, hd⟩
  have hsafe := Prog.safe_next hsafe hrun
  have hr2 := G0_readable (by rw [eP1]; exact h0) hp1 hr1
  rw [← hm2] at hx hP hd
  refine (boxA (K := fun p q => Simd.Base32.decode_auto w i p k q config.kind) (.inl rfl) Pl h0.sound hr2 (Nat.lt_of_lt_of_le hp1 h0.next) ((AfterCall.place h0 hp1).trans eP1) hP
    (Simd.Base32.kern_decode w hi config hl (Simd.Base32.decoded_length_move config.padding hl hx (hx.alloc hP m) hd) (hx.alloc hP m) (writable_alloc _ _) (noOverlap_new hP))
    (fun _ _ _ => Simd.Base32.ren_decode_auto ..) (fun _ _ => Simd.Base32.uses_decode_auto (by rfl) (by rfl) _ _ _ _) hsafe).mono (fun _ _ _ h => BoxOk.earlier h hm2 h0 hp1) fun _ h => BoxErr.earlier h hm2 h0 hp1

end Base32

namespace Hex

theorem encode_box_sim (Pl : Plat) (i : Option Isa) (case : AsciiCase) (hs : Sound s) (hr : Readable s p n) (eP : place s p = P) (hP : P.buf < s.mem.nbuf) (hl : xs.length = n)
    (hx : Reads s.mem P xs) (hF : ∀ d, d ≤ Pl.isizeMax → ∀ m p q, Reads m p xs → Writable m q d → NoOverlap p n q d → Fine (Simd.Hex.encode Pl i ⟨p, n⟩ ⟨q, d⟩ case) m p n q d)
    (hsafe : (Simd.Hex.encode_to_boxed_str Pl i ⟨P, n⟩ case).run s.mem ≠ .ub) (hne : ∀ m', (Simd.Hex.encode_to_boxed_str Pl i ⟨P, n⟩ case).run s.mem ≠ .err m') :
    Sim (encode_to_boxed_str Pl i ⟨p, n⟩ case s) ((Simd.Hex.encode_to_boxed_str Pl i ⟨P, n⟩ case).run s.mem) (BoxOk s P n p.buf) (BoxErr s P n p.buf) := by
  refine box_call hs hr eP (newBox_back s) fun s1 p1 hm hs1 hr1 hp1 eP1 => ?_
  rw [← hm] at hx hP hsafe hne
  unfold Simd.Hex.encode_to_boxed_str at hsafe hne ⊢
  dsimp only at hsafe hne ⊢
  by_cases hn : n = 0
  · rw [if_pos hn, if_pos hn]; exact empty_sim hs1
  rw [if_neg hn] at hsafe hne
  rw [if_neg hn, if_neg hn]
  refine Sim.bind (Sim.liftO _) ?_
  rintro m _ _ hrun ⟨rfl, rfl, hO⟩
  have hsafe := Prog.safe_next hsafe hrun
  have hne := Prog.noerr_next hne hrun
  refine Sim.bind (Sim.assert _) ?_
  rintro _ _ _ hrun ⟨rfl, -⟩
  have hsafe := Prog.safe_next hsafe hrun
  have hne := Prog.noerr_next hne hrun
  have hb := alloc_ok (Prog.safe_head hsafe)
  have hm2 : ∀ {m}, Pl.mulU n 2 = some m → m / 2 ≥ n := fun {m} h => by
    unfold Plat.mulU at h
    split at h
    · injection h with h; omega
    · cases h
  exact boxE (K := fun p q => Simd.Hex.encode_auto i p n q case) (.inr rfl) Pl hs1 hr1 hp1 eP1 hP
    (Simd.Hex.kern_encode Pl i case hl (hF _ hb.2) (hm2 hO) (hx.alloc hP _) (writable_alloc _ _) (noOverlap_new hP))
    (fun _ _ _ => Simd.Hex.ren_encode_auto ..) (fun _ _ => Simd.Hex.uses_encode_auto (by rfl) (by rfl) _ _ _) hsafe hne

theorem decode_box_sim (Pl : Plat) (i : Option Isa) (hs : Sound s) (hr : Readable s p n) (eP : place s p = P) (hP : P.buf < s.mem.nbuf) (hl : xs.length = n)
    (hx : Reads s.mem P xs) (hF : n / 2 ≤ Pl.isizeMax → ∀ m p q, Reads m p xs → Writable m q (n / 2) → NoOverlap p n q (n / 2) → Fine (Simd.Hex.decode i ⟨p, n⟩ ⟨q, n / 2⟩) m p n q (n / 2))
    (hsafe : (Simd.Hex.decode_to_boxed_bytes Pl i ⟨P, n⟩).run s.mem ≠ .ub) :
    Sim (decode_to_boxed_bytes Pl i ⟨p, n⟩ s) ((Simd.Hex.decode_to_boxed_bytes Pl i ⟨P, n⟩).run s.mem) (BoxOk s P n p.buf) (BoxErr s P n p.buf) := by
  refine box_call hs hr eP (newBox_back s) fun s1 p1 hm hs1 hr1 hp1 eP1 => ?_
  rw [← hm] at hx hP hsafe
  unfold Simd.Hex.decode_to_boxed_bytes at hsafe ⊢
  dsimp only at hsafe ⊢
  by_cases hn : n = 0
  · rw [if_pos hn, if_pos hn]; exact empty_sim hs1
  rw [if_neg hn] at hsafe
  rw [if_neg hn, if_neg hn]
  refine Sim.bind (Sim.ensure _ (boxErr_read rfl (AfterCall.refl hs1 _))) ?_
  rintro _ _ _ hrun ⟨rfl, he⟩
  have hsafe := Prog.safe_next hsafe hrun
  have hb := alloc_ok (Prog.safe_head hsafe)
  exact boxA (K := fun p q => Simd.Hex.decode_auto i p n q) (.inr rfl) Pl hs1 hr1 hp1 eP1 hP
    (Simd.Hex.kern_decode i hl (hF hb.2) he (hx.alloc hP _) (writable_alloc _ _) (noOverlap_new hP))
    (fun _ _ _ => Simd.Hex.ren_decode_auto ..) (fun _ _ => Simd.Hex.uses_decode_auto (by rfl) (by rfl) _ _) hsafe

end Hex

end Simd.Tree
