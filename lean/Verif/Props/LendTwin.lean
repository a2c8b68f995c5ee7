import Verif.Lemmas.LendTwinAll
import Verif.Props.LendPlain
/-
C101: programs with references see the same on all machines.
-/
namespace Simd
open Spec Borrow Lend
open Client (Seen)

namespace Lend

theorem ported_reaches {M : Machine} {p : Program} {h : List Seen} {w : World} (hr : Ported M p h w) : Reaches M w := by
  induction hr with
  | start => exact .start
  | step _ _ hl _ hs ih => exact ih.step hl (exec_of_shows hs)

theorem ported_nil {M : Machine} {p : Program} {w : World} (h : Ported M p [] w) : w = .start := by
  generalize e : ([] : List Seen) = l at h
  cases h with
  | start => rfl
  | step => exact absurd e (by simp)

theorem ported_snoc {M : Machine} {p : Program} {h : List Seen} {v : Seen} {w' : World} (hr : Ported M p (h ++ [v]) w') :
    ∃ w op, Ported M p h w ∧ p h = some (source op) ∧ Legal M w op ∧ Exact w op ∧ Shows M.P w op v (.ok w') := by
  generalize e : h ++ [v] = l at hr
  cases hr with
  | start => exact absurd e (by simp)
  | step h1 h2 h3 h4 h5 =>
    obtain ⟨e1, e2⟩ := List.append_inj' e rfl
    subst e1
    injection e2 with e2
    subst e2
    exact ⟨_, _, h1, h2, h3, h4, h5⟩

end Lend

/-- C101, a step: in worlds, of two machines, in which a program has the same, a step with the same source shows the same, and the program has the same after it. -/
theorem C101_step {M M' : Machine} {w w' : World} (hr : Reaches M w) (hr' : Reaches M' w') (ht : Twin w w') {op op' : Lend.Op} (hsrc : source op = source op') (hl : Lend.Legal M w op) (hl' : Lend.Legal M' w' op')
    (hx : Exact w op) (hx' : Exact w' op') {v v' : Seen} {w1 w1' : World} (hs : Shows M.P w op v (.ok w1)) (hs' : Shows M'.P w' op' v' (.ok w1')) : v = v' ∧ Twin w1 w1' :=
  twin_step (reaches_rinv hr) (reaches_rinv hr') ht hsrc hl hl' hx hx' hs hs'

/-- C101, programs: after as many steps on two machines, a program has got to know the same, and has the same. -/
theorem C101_same {M M' : Machine} {p : Program} {h h' : List Seen} {w w' : World} (hr : Ported M p h w) (hr' : Ported M' p h' w') (hl : h.length = h'.length) : h = h' ∧ Twin w w' := by
  induction hr generalizing h' w' with
  | start =>
    obtain rfl := List.length_eq_zero_iff.1 hl.symm
    rw [ported_nil hr']
    exact ⟨rfl, rfl, rfl, fun _ _ _ => rfl⟩
  | @step h w w1 op v h1 h2 h3 h4 h5 ih =>
    rcases List.eq_nil_or_concat h' with rfl | ⟨k, v', rfl⟩
    · rw [List.length_append] at hl; cases hl
    · rw [List.concat_eq_append] at hr' hl ⊢
      obtain ⟨w2, op', g1, g2, g3, g4, g5⟩ := ported_snoc hr'
      obtain ⟨rfl, e⟩ := ih g1 (by rw [List.length_append, List.length_append] at hl; exact Nat.succ.inj hl)
      rw [h2] at g2
      obtain ⟨rfl, e2⟩ := C101_step (ported_reaches h1) (ported_reaches g1) e (Option.some.inj g2) h3 g3 h4 g4 h5 g5
      exact ⟨rfl, e2⟩

/-- C101, variables: a variable that holds something on one machine holds something of the same type on the other, with the same bytes. -/
theorem C101_variables {M M' : Machine} {p : Program} {h h' : List Seen} {w w' : World} (hr : Ported M p h w) (hr' : Ported M' p h' w') (hl : h.length = h'.length) {x : Nat} {o : Owned} (ho : w.vars x = some o) :
    ∃ o', w'.vars x = some o' ∧ kind o = kind o' ∧ ∃ xs, xs.length = Client.len o ∧ w.Bytes ⟨x, 0⟩ xs ∧ w'.Bytes ⟨x, 0⟩ xs := by
  have ht := (C101_same hr hr' hl).2
  obtain ⟨o', ho', ek⟩ := ht.holds ho
  refine ⟨o', ho', ek, ht.reads (reaches_rinv (ported_reaches hr)) (reaches_rinv (ported_reaches hr')) (.inl ⟨o, ho, by show 0 + _ ≤ _; omega⟩) (.inl ⟨o', ho', ?_⟩)⟩
  have el : Client.len o = Client.len o' := by rw [← kind_len, ← kind_len, ek]
  show 0 + _ ≤ _
  omega

/-- C101, references: a reference that is live on one machine is live on the other, to the same part of the memory of the same variable, and shows the same bytes. -/
theorem C101_references {M M' : Machine} {p : Program} {h h' : List Seen} {w w' : World} (hr : Ported M p h w) (hr' : Ported M' p h' w') (hl : h.length = h'.length) {r : Nat} {ρ : Ref} (hρ : w.refs r = some ρ) :
    ∃ ρ', w'.refs r = some ρ' ∧ ρ'.owner = ρ.owner ∧ ρ'.off = ρ.off ∧ ρ'.len = ρ.len ∧ ρ'.excl = ρ.excl ∧ ρ'.init = ρ.init ∧
      (ρ.init = true → ∃ xs, xs.length = ρ.len ∧ w.Bytes ⟨r, ρ.off⟩ xs ∧ w'.Bytes ⟨r, ρ.off⟩ xs) := by
  have ht := (C101_same hr hr' hl).2
  have e := congrFun ht.shapes r
  rw [plain_shape hρ] at e
  cases hρ' : w'.refs r with
  | none =>
    unfold Plain.shapes World.plain at e
    dsimp only at e
    rw [hρ'] at e
    cases e
  | some ρ' =>
    rw [plain_shape hρ'] at e
    injection e with e
    injection e with e1 e2 e3 e4 e5 e6
    refine ⟨ρ', rfl, by simp_all, by simp_all, by simp_all, by simp_all, by simp_all, fun hi => ?_⟩
    exact ht.reads (reaches_rinv (ported_reaches hr)) (reaches_rinv (ported_reaches hr')) (.inr ⟨ρ, hρ, Nat.le_refl _, Nat.le_refl _, fun _ => hi⟩)
      (.inr ⟨ρ', hρ', by show ρ'.off ≤ ρ.off; simp_all, by show ρ.off + ρ.len ≤ ρ'.off + ρ'.len; simp_all, fun _ => by simp_all⟩)

/-! ### Examples -/

namespace Lend

/-- `let a = vec![0x5a; 16]; let r2 = &a[..]; r2.format_simple().to_string()`, with `r2` as UUID. -/
def shownUuid : Program := fun h => [Op.new 0 false (List.replicate 16 0x5a#8) 0, .borrow 2 false true ⟨0, 0⟩ 16, .ext (.formatSimple none .lower ⟨2, 0⟩)][h.length]?

theorem shownUuid_runs (M : Machine) (i : Option Isa) (cap : Nat) (hi : M.Runs Dispatch.uuid_format_simple i) (hc : 16 ≤ cap) (hm : cap ≤ M.P.isizeMax) :
    ∃ w, Ported M shownUuid [.nothing, .nothing, .bytes (uuidSimple false (List.replicate 16 0x5a#8))] w ∧ w.vars 0 = some (.vec ⟨0, 16, cap⟩) ∧ ∃ ρ, w.refs 2 = some ρ ∧ ρ.len = 16 := by
  obtain ⟨o, s', h1, rfl, h2⟩ := Client.new_value (P := M.P) World.start.toWorld 0 false (bs := List.replicate 16 0x5a#8) (cap := cap) hc
  have he := Exec.new (P := M.P) (w := .start) 0 false (List.replicate 16 0x5a#8) cap
  rw [h1] at he
  have p1 : Ported M shownUuid [.nothing] _ := .step .start (op := .new 0 false (List.replicate 16 0x5a#8) cap) rfl ⟨⟨rfl, rfl⟩, hc, hm, nofun⟩ trivial (.quiet trivial he)
  let w1 : World := ⟨⟨World.start.set 0 (some (.vec ⟨0, 16, cap⟩)), s'⟩, World.start.refs⟩
  have hb : Lend.Legal M w1 (.borrow 2 false true ⟨0, 0⟩ 16) :=
    ⟨⟨rfl, rfl⟩, fun _ => .inl ⟨_, rfl, Nat.le_refl _⟩, nofun, fun _ => ⟨.inl ⟨_, rfl, Nat.le_refl _⟩, fun b i hi r ρ hr => by cases hr⟩⟩
  obtain ⟨w2, e2⟩ := (C92_goes_on M (ported_reaches p1 : Reaches M w1) hb id).1
  have p2 : Ported M shownUuid [.nothing, .nothing] w2 := .step p1 rfl hb trivial (.quiet trivial e2)
  generalize e : End.ok w2 = f at e2
  cases e2 with
  | borrow =>
    obtain ⟨s2, e3, h3, h4⟩ := make_eq e.symm
    have hx : w2.Bytes ⟨2, 0⟩ (List.replicate 16 0x5a#8) := by
      rw [e3]
      show Reads s2.mem ⟨s2.home s'.next, 0⟩ _
      rw [h3, h4]
      dsimp only
      rw [if_pos rfl]
      exact (h2 World.start.vars).2
    have hl : Lend.Legal M w2 (.ext (.formatSimple i .lower ⟨2, 0⟩)) := ⟨hi, .inr ⟨_, by rw [e3]; rfl, Nat.le_refl _, Nat.le_refl _, fun _ => rfl⟩, fun b i hi r ρ hr hc hx => by
      rw [e3] at hr
      dsimp only [World.setRef] at hr
      split at hr
      · cases hr; cases hx
      · cases hr⟩
    obtain ⟨w3, e4⟩ := (C92_goes_on M (ported_reaches p2) hl id).1
    obtain ⟨⟨res, g1, g2⟩, g3, g4, -⟩ := C92_ext M (ported_reaches p2) hl e4 (xs := List.replicate 16 0x5a#8) rfl hx
    subst g1
    generalize e : End.ok w3 = f at e4
    cases e4 with
    | ext =>
      have hs := Shows.ext (P := M.P) (w := w2) (.formatSimple i .lower ⟨2, 0⟩)
      rw [← e, g2] at hs
      exact ⟨w3, .step p2 rfl hl trivial hs, by rw [g3, e3]; rfl, _, by rw [g4, e3]; rfl, rfl⟩

/-- The program on x86-64 with AVX2 and on wasm32 with SIMD128, where the allocator gives more: it sees the same text, `5a5a…`, and the capacities differ. -/
example : ∃ h w w', Ported sender shownUuid h w ∧ Ported receiver shownUuid h w' ∧ h = [.nothing, .nothing, .bytes (List.replicate 16 [0x35#8, 0x61#8]).flatten] ∧ Twin w w' ∧ w.vars 0 ≠ w'.vars 0 := by
  obtain ⟨w, h1, h2, -⟩ := shownUuid_runs sender (some .avx2) 16 (Dispatch.runs_first _ _ _ (by decide) (by decide) : Dispatch.Runs sender.build sender.cpu Dispatch.uuid_format_simple _) (by decide) (Nat.le_trans (by decide) sender_max)
  obtain ⟨w', h1', h2', -⟩ := shownUuid_runs receiver (some .wasm128) 24
    (by show Dispatch.Runs _ _ _ _; unfold Dispatch.Runs; rw [if_pos (by decide)]; decide) (by decide) (by decide)
  refine ⟨_, w, w', h1, h1', by rw [show uuidSimple false (List.replicate 16 0x5a#8) = (List.replicate 16 [0x35#8, 0x61#8]).flatten by decide], (C101_same h1 h1' rfl).2, ?_⟩
  rw [h2, h2']
  exact nofun

/-- Whatever the machine, the program sees this text if it gets that far. -/
example {M : Machine} {h : List Seen} {w : World} (hr : Ported M shownUuid h w) (hl : h.length = 3) : h = [.nothing, .nothing, .bytes (uuidSimple false (List.replicate 16 0x5a#8))] := by
  obtain ⟨w', h1, -⟩ := shownUuid_runs sender (some .avx2) 16 (Dispatch.runs_first _ _ _ (by decide) (by decide) : Dispatch.Runs sender.build sender.cpu Dispatch.uuid_format_simple _) (by decide) (Nat.le_trans (by decide) sender_max)
  exact (C101_same hr h1 hl).1

/-- A call that encodes leaves nothing open, whatever the world. -/
example (w : World) : Exact w (.call hexOp (some 3)) := fun _ _ _ _ _ => Nat.le_refl _

/-- A call that decodes leaves nothing open if what it is given is a text: with `4869` in `a`, `hex_simd::decode(a, b[..])`. -/
example (w : World) (h : w.Bytes ⟨0, 0⟩ [0x34#8, 0x38#8, 0x36#8, 0x39#8]) : Exact w (.call (.hexDecode (some .avx2) ⟨⟨0, 0⟩, 4⟩ ⟨⟨1, 0⟩, 8⟩) none) := fun xs res hl hb hm => by
  have e : xs = [0x34#8, 0x38#8, 0x36#8, 0x39#8] := Client.reads_unique hb h hl
  subst e
  have e : res = some [0x48#8, 0x69#8] := CallMeans.unique hm (c := .hexDecode (some .avx2) ⟨⟨0, 0⟩, 4⟩ ⟨⟨1, 0⟩, 8⟩) ⟨some [0x48#8, 0x69#8], (by unfold FromHex IsHexOf; decide), rfl⟩
  subst e
  exact Nat.le_refl _

/-! ### What is left behind by a decoder that fails -/

/-- x86-64 without anything beyond SSE2. -/
def oldBox : Machine := ⟨⟨.x86_64, true, false, fun t => t == .sse2⟩, fun t => t == .sse2, ⟨64, by omega⟩⟩

/-- `let a = b"zz41".to_vec(); let b = b"  ".to_vec(); hex_simd::decode(&a, b.as_mut_slice().as_out())` -/
def badHex (i : Option Isa) : Call Slice := .hexDecode i ⟨⟨0, 0⟩, 4⟩ ⟨⟨1, 0⟩, 2⟩

def zz41 : List Byte := [0x7a#8, 0x7a#8, 0x34#8, 0x31#8]

def blanks : List Byte := [0x20#8, 0x20#8]

/-- The second byte of `b` after it, if it fails. -/
def leftBehind (M : Machine) (i : Option Isa) : Option Byte :=
  match Client.exec M.P World.start.toWorld (.new 0 false zz41 4) with
  | .ok w1 =>
    match Client.exec M.P w1 (.new 1 false blanks 2) with
    | .ok w2 =>
      match (World.args ⟨w2, World.start.refs⟩ (badHex i)).borrow M.P w2.st with
      | .err s => (World.plain ⟨⟨w2.vars, s⟩, World.start.refs⟩).byte 1 1
      | _ => none
    | _ => none
  | _ => none

theorem left1 : leftBehind sender (some .avx2) = some 0x20#8 := by decide +kernel
theorem left2 : leftBehind oldBox (some .sse2) = some 0x41#8 := by decide +kernel

/-- The program up to the call. -/
def beforeBadHex : Program := fun h => [Op.new 0 false zz41 0, .new 1 false blanks 0][h.length]?

theorem badHex_runs (M : Machine) (i : Option Isa) (hi : (badHex i).RunsOn M) (hm : 4 ≤ M.P.isizeMax) {b : Byte} (hb : leftBehind M i = some b) :
    ∃ w w', Ported M beforeBadHex [.nothing, .nothing] w ∧ Lend.Legal M w (.call (badHex i) none) ∧ Shows M.P w (.call (badHex i) none) .failed (.ok w') ∧ w'.plain.kinds 1 = some (.vec, 2) ∧
      w'.plain.byte 1 1 = some b := by
  obtain ⟨o, s1, h1, rfl, -⟩ := Client.new_value (P := M.P) World.start.toWorld 0 false (bs := zz41) (cap := 4) (by decide)
  have he := Exec.new (P := M.P) (w := .start) 0 false zz41 4
  rw [h1] at he
  have p1 : Ported M beforeBadHex [.nothing] _ := .step .start (op := .new 0 false zz41 4) rfl ⟨⟨rfl, rfl⟩, by decide, hm, nofun⟩ trivial (.quiet trivial he)
  let w1 : World := ⟨⟨World.start.set 0 (some (.vec ⟨0, 4, 4⟩)), s1⟩, World.start.refs⟩
  obtain ⟨o, s2, h2, rfl, -⟩ := Client.new_value (P := M.P) w1.toWorld 1 false (bs := blanks) (cap := 2) (by decide)
  have he := Exec.new (P := M.P) (w := w1) 1 false blanks 2
  rw [h2] at he
  have p2 : Ported M beforeBadHex [.nothing, .nothing] _ := .step (w := w1) p1 (op := .new 1 false blanks 2) rfl ⟨⟨rfl, rfl⟩, by decide, by omega, nofun⟩ trivial (.quiet trivial he)
  let w2 : World := ⟨⟨w1.set 1 (some (.vec ⟨s1.next, 2, 2⟩)), s2⟩, World.start.refs⟩
  have p2 : Ported M beforeBadHex [.nothing, .nothing] w2 := p2
  have hI := reaches_rinv (ported_reaches p2)
  have v0 : w2.vars 0 = some (.vec ⟨0, 4, 4⟩) := rfl
  have v1 : w2.vars 1 = some (.vec ⟨s1.next, 2, 2⟩) := rfl
  have hl : Lend.Legal M w2 (.call (badHex i) none) := by
    refine ⟨hi, ⟨.inl ⟨_, v0, Nat.le_refl 4⟩, fun b i hi r ρ hr => by cases hr⟩, ⟨.inl ⟨_, v1, Nat.le_refl 2, fun _ => id⟩, fun b i hi r ρ hr => by cases hr⟩, fun h => h.elim, noOverlap_of_ne ?_ _ _, nofun⟩
    show w2.st.home (w2.name 0) ≠ w2.st.home (w2.name 1)
    rw [(hI.var_name v0).1, (hI.var_name v1).1]
    intro e
    cases hI.base.apart 0 1 _ _ v0 v1 e
  have hs := Shows.call (P := M.P) (w := w2) (badHex i) none
  unfold leftBehind at hb
  rw [show Client.exec M.P World.start.toWorld (.new 0 false zz41 4) = .ok w1.toWorld from h1] at hb
  dsimp only at hb
  rw [show Client.exec M.P w1.toWorld (.new 1 false blanks 2) = .ok w2.toWorld from h2] at hb
  have hb : (match (w2.args (badHex i)).borrow M.P w2.st with
      | .err s => (World.plain ⟨⟨w2.vars, s⟩, World.start.refs⟩).byte 1 1
      | _ => none) = some b := hb
  generalize (w2.args (badHex i)).borrow M.P w2.st = r at hs hb
  cases r with
  | err s => exact ⟨w2, _, p2, hl, hs, rfl, hb⟩
  | _ => cases hb

/-- C101, the hypothesis on the steps is needed: what is left in a destination after an error depends on the machine. The implementation for AVX2 stops at the first wrong digit, that for SSE2 goes on to the end. -/
theorem _root_.Simd.C101_needs_exact : ∃ (M M' : Machine) (w w' w1 w1' : World) (op op' : Lend.Op) (v : Seen), Reaches M w ∧ Reaches M' w' ∧ Twin w w' ∧ source op = source op' ∧ Lend.Legal M w op ∧
    Lend.Legal M' w' op' ∧ Shows M.P w op v (.ok w1) ∧ Shows M'.P w' op' v (.ok w1') ∧ ¬ Twin w1 w1' := by
  obtain ⟨w, w1, a1, a2, a3, a4, a5⟩ := badHex_runs sender (some .avx2) runs_hex_decode (by decide) left1
  obtain ⟨w', w1', b1, b2, b3, b4, b5⟩ := badHex_runs oldBox (some .sse2) (Dispatch.runs_first _ _ _ (by decide) (by decide) : Dispatch.Runs oldBox.build oldBox.cpu Dispatch.hex_decode _) (by decide) left2
  refine ⟨sender, oldBox, w, w', w1, w1', .call (badHex (some .avx2)) none, .call (badHex (some .sse2)) none, _, ported_reaches a1, ported_reaches b1, (C101_same a1 b1 rfl).2, rfl, a2, b2, a3, b3, fun h => ?_⟩
  have e := h.bytes 1 1 (.inl ⟨_, _, a4, by decide⟩)
  rw [a5, b5] at e
  exact absurd e (by decide)

end Lend

end Simd
