import Verif.Lemmas.TreeParCall
import Verif.Props.TreeBorrows
import Verif.Props.BorrowPar
import Verif.Spec.TreePar
/-
C96: `par_encode` obeys the aliasing rules of Tree Borrows, too, whatever the threads do when.
-/
namespace Simd.Tree
open Spec
open Borrow (noOverlap_pt Good2 good2_of count_ok fork_panic fork_err fork_seq)

theorem lift_bind {α β : Type} (a : α) (f : α → BProg β) : (prog (liftO (some a)) >>= f) = f a := rfl

theorem call_eq {α : Type} (x : BProg α) (s : State) : call x s = (x s.enter).leave := by
  unfold call State.enter Result.leave
  cases x _ <;> rfl

/-- All that can be seen of a call. -/
def OnlyEnd (s : State) (c : Call Slice) (x : BProg (Split Slice)) (o : Out Slice) : Prop := (∀ r, Split.Outcome x s r → SameEnd s c r o) ∧ ∃ r, Split.Outcome x s r

theorem onlyEnd_panic {s : State} {c : Call Slice} {x : BProg (Split Slice)} (h : x s.enter = .panic) : OnlyEnd s c x .panic := by
  refine ⟨fun r hr => ?_, _, .panic h⟩
  cases hr with
  | panic => trivial
  | seq h' | err h' | ub h' | par h' | held h' | bad h' => rw [h] at h'; cases h'

theorem onlyEnd_seq {s : State} {c : Call Slice} {x : BProg (Split Slice)} {o : Out Slice}
    (h : Sim (call x s) o (fun r r' s' => ∃ a, r = .seq a ∧ AfterCall s s' (loans s c) ∧ FreshSlice 1 s s' c.exclusive.1.buf a r') (fun s' => AfterCall s s' (loans s c))) : OnlyEnd s c x o := by
  rw [call_eq] at h
  cases e : x s.enter with
  | ok a s' =>
    rw [e] at h
    unfold Result.leave at h
    dsimp only at h
    cases e2 : s'.ret with
    | none => rw [e2] at h; cases o <;> exact h.elim
    | some s3 =>
      rw [e2] at h
      cases o with
      | ok r m =>
        obtain ⟨hm, a, rfl, h1, h2⟩ := h
        refine ⟨fun r hr => ?_, _, .seq e⟩
        cases hr with
        | seq h' =>
          rw [e] at h'; cases h'
          unfold Result.leave; dsimp only; rw [e2]; exact ⟨hm, h1, h2⟩
        | panic h' | err h' | ub h' | par h' | held h' | bad h' => rw [e] at h'; cases h'
      | err | panic | ub => exact h.elim
  | err s' =>
    rw [e] at h
    unfold Result.leave at h
    dsimp only at h
    cases e2 : s'.ret with
    | none => rw [e2] at h; cases o <;> exact h.elim
    | some s3 =>
      rw [e2] at h
      cases o with
      | err m =>
        refine ⟨fun r hr => ?_, _, .err e⟩
        cases hr with
        | err h' =>
          rw [e] at h'; cases h'
          unfold Result.leave; dsimp only; rw [e2]; exact h
        | panic h' | seq h' | ub h' | par h' | held h' | bad h' => rw [e] at h'; cases h'
      | ok | panic | ub => exact h.elim
  | panic =>
    rw [e] at h
    cases o with
    | panic => exact onlyEnd_panic e
    | ok | err | ub => exact h.elim
  | ub => rw [e] at h; cases o <;> exact h.elim

theorem map_left {α β γ : Type} {x : BProg α} {f : α → γ} {s : State} {o : Out β} {Q : α → β → State → Prop} {Q' : γ → β → State → Prop} {E : State → Prop} (h : Sim (x s) o Q E)
    (hf : ∀ a b s', Q a b s' → Q' (f a) b s') : Sim ((x >>= fun r => pure (f r)) s) o Q' E := by
  show Sim (BProg.bind x _ s) _ _ _
  unfold BProg.bind
  cases e : x s <;> cases o <;> rw [e] at h <;> first | exact h.elim | trivial | exact ⟨h.1, hf _ _ _ h.2⟩ | exact h

open Simd.Base64 in
/-- The path without threads. -/
theorem par_seq (M : Machine) {i : Option Isa} {config : Config} {p q : Ptr} {n d : Nat} {k : Nat} (s : State) (hr : (Call.base64Encode i config ⟨p, n⟩ ⟨q, d⟩).RunsOn M) (hs : Sound s)
    (hl : Lends s (.base64Encode i config ⟨p, n⟩ ⟨q, d⟩)) (hb : (untag s (.base64Encode i config ⟨p, n⟩ ⟨q, d⟩)).Borrows M.P s.mem) (hk : k * 4096 ≤ M.P.usizeMax) (hn : ¬ Splits k n) :
    OnlyEnd s (.base64Encode i config ⟨p, n⟩ ⟨q, d⟩) (Tree.Base64.par_encode M.P k i config ⟨p, n⟩ ⟨q, d⟩) ((encode M.P i config ⟨place s p, n⟩ ⟨place s q, d⟩).run s.mem) := by
  obtain ⟨⟨xs, hl', hx⟩, hw, hP, hP', ho⟩ := id hb
  have hG : Good2 (fun p q => encode M.P i config ⟨p, n⟩ ⟨q, d⟩) (place s p) n (place s q) d s.mem :=
    good2_of hl' (fun m p q hx hw ho => Call.fine M (.base64Encode i config ⟨p, n⟩ ⟨q, d⟩) m hr ⟨⟨xs, hl', hx⟩, hw, hP, hP', ho⟩) hx hw ho
  have hre : Readable s p n := hl.readable
  have hmu : Mutable s q d := hl.mutable
  have hqt : q.buf < s.next := hmu.1
  have ho : NoOverlap (place s p) n (place s q) d := ho
  apply onlyEnd_seq
  have e1 : M.P.mulU k 4096 = some (k * 4096) := if_pos hk
  have hcond : n < k * 4096 ∨ k < 2 ∨ n / 3 < k := by unfold Splits at hn; omega
  have ex : Tree.Base64.par_encode M.P k i config ⟨p, n⟩ ⟨q, d⟩ = arg .shared p n >>= fun sp => Tree.Base64.encode M.P i config ⟨sp, n⟩ ⟨q, d⟩ >>= fun r => pure (.seq r) := by
    unfold Tree.Base64.par_encode
    simp only [e1, lift_bind, if_pos hcond]
  rw [ex]
  have eG : G2 (place s p) n p.buf (place s q) d q.buf = loans s (.base64Encode i config ⟨p, n⟩ ⟨q, d⟩) := funext fun b => funext (loans2 (s := s) (c := .base64Encode i config ⟨p, n⟩ ⟨q, d⟩) rfl rfl b)
  rw [← eG]
  refine (copy_call (y := encode M.P i config ⟨place s p, n⟩ ⟨place s q, d⟩) (R := fun s q s' r r' => ∃ a, r = Split.seq a ∧ RetB s q s' a r') ⟨?_, ?_, ?_⟩ hs hre hmu hqt rfl rfl ho
    fun s1 p1 hmem hs1 hr1 hm1 hq1 hp1 eP1 eQ1 => ?_).mono (fun r r' s' h => ?_) fun _ h => h
  · rintro _ _ _ _ _ _ hb ⟨a, rfl, h⟩; exact ⟨a, rfl, (Ret.res 1).back hb h⟩
  · rintro _ _ _ _ _ _ h1 h2 ⟨a, rfl, h⟩; exact ⟨a, rfl, (Ret.res 1).old h1 h2 h⟩
  · rintro _ _ _ _ _ _ _ h1 h2 ⟨a, rfl, h⟩; exact ⟨a, rfl, (Ret.res 1).new h1 h2 h⟩
  · exact map_left (Tree.Base64.encode_sim M.P i config hs1 hr1 hm1 hq1 eP1 eQ1 ho (hmem ▸ hG)) fun a b s' h => ⟨h.1, a, rfl, h.2⟩
  · obtain ⟨h1, a, rfl, h2⟩ := h; exact ⟨a, rfl, h1, h2⟩

open Simd.Base64 in
/-- The path with threads. -/
theorem par_threads {Pl : Plat} {i : Option Isa} (hi : i ≠ some .sse2) {config : Config} {p q : Ptr} {xs : List Byte} {d k : Nat} (s : State) (hs : Sound s)
    (hl : Lends s (.base64Encode i config ⟨p, xs.length⟩ ⟨q, d⟩)) (hx : Reads s.mem (place s p) xs) (hw : Writable s.mem (place s q) d) (ho : NoOverlap (place s p) xs.length (place s q) d)
    (hm : xs.length ≤ Pl.isizeMax) (h : (text config xs).length ≤ d) (hsp : Splits k xs.length) :
    OnlyEnd s (.base64Encode i config ⟨p, xs.length⟩ ⟨q, d⟩) (Tree.Base64.par_encode Pl k i config ⟨p, xs.length⟩ ⟨q, d⟩)
      (.ok ⟨place s q, (text config xs).length⟩ (s.mem.write (place s q) (text config xs))) := by
  obtain ⟨h1, h2, h3⟩ := id hsp
  have hu := isizeMax_le Pl
  have hu' := usizeMax_ge Pl
  have hc : 0 < (xs.length / 3 + k) / k := Nat.div_pos (by omega) (by omega)
  have hc' : (xs.length / 3 + k) / k ≤ xs.length / 3 / 2 + 1 := by
    rw [Nat.add_div_right _ (by omega)]
    exact Nat.succ_le_succ (Nat.div_le_div_left h2 (by omega))
  have hfit := encLen_fits Pl config.extra.padding xs.length (by omega)
  have e1 : Pl.mulU k 4096 = some (k * 4096) := if_pos (by omega)
  have e2 : Pl.addU (xs.length / 3) k = some (xs.length / 3 + k) := if_pos (by omega)
  have e3 : Pl.mulU ((xs.length / 3 + k) / k) 3 = some ((xs.length / 3 + k) / k * 3) := if_pos (by omega)
  have e4 : Pl.mulU ((xs.length / 3 + k) / k) 4 = some ((xs.length / 3 + k) / k * 4) := if_pos (by omega)
  have e5 := encoded_length_unchecked_eq Pl xs.length config hfit
  rw [← text_length] at e5
  have hcond : ¬ (xs.length < k * 4096 ∨ k < 2 ∨ xs.length / 3 < k) := by omega
  have hcount := count_ok config.extra.padding xs.length _ hc
  rw [← text_length] at hcount
  have key := front_sim (p := p) (q := q) (n := xs.length) (d := d) (l := (text config xs).length) hs hl.readable hl.mutable ho h
    (show (xs.length / 3 + k) / k * 3 ≠ 0 by omega) (show (xs.length / 3 + k) / k * 4 ≠ 0 by omega) e3 e4
    (job := fun a b sc dc => .job i config a b (min (Borrow.Base64.chunk_count xs.length a) (Borrow.Base64.chunk_count (text config xs).length b)) ⟨sc, xs.length⟩ ⟨dc, (text config xs).length⟩)
  have key' : Sim (Tree.Base64.par_encode Pl k i config ⟨p, xs.length⟩ ⟨q, d⟩ s.enter) (.ok () s.mem)
      (fun r _ s5 => ∃ sc dc dp, r = .par (.job i config ((xs.length / 3 + k) / k * 3) ((xs.length / 3 + k) / k * 4)
        (min (Borrow.Base64.chunk_count xs.length ((xs.length / 3 + k) / k * 3)) (Borrow.Base64.chunk_count (text config xs).length ((xs.length / 3 + k) / k * 4))) ⟨sc, xs.length⟩ ⟨dc, (text config xs).length⟩)
        (parBack dp (text config xs).length) ∧ ParReady s s5 p q xs.length d (text config xs).length sc dc dp) (fun _ => False) := by
    unfold Tree.Base64.par_encode
    simp only [e1, lift_bind, if_neg hcond, e2, e5]
    exact key
  have eG : G2 (place s p) xs.length p.buf (place s q) d q.buf = loans s (.base64Encode i config ⟨p, xs.length⟩ ⟨q, d⟩) :=
    funext fun b => funext (loans2 (s := s) (c := .base64Encode i config ⟨p, xs.length⟩ ⟨q, d⟩) rfl rfl b)
  cases hX : Tree.Base64.par_encode Pl k i config ⟨p, xs.length⟩ ⟨q, d⟩ s.enter with
  | ok r s5 =>
    rw [hX] at key'
    obtain ⟨-, sc, dc, dp, rfl, R⟩ := key'
    have hsec : ∀ {t s'}, Thread.Steps _ s5.enter t s' → _ := fun hst => section_after R.sound hi R.src_at R.dst_at R.src R.dst (ho.mono (Nat.le_refl _) h) (R.mem ▸ hx)
      (R.mem ▸ (Nat.le_trans (Nat.add_le_add_left h _) hw)) hcount hst
    have hpar : ∀ s'' s3, Thread.Steps (.run (.job i config ((xs.length / 3 + k) / k * 3) ((xs.length / 3 + k) / k * 4)
        (min (Borrow.Base64.chunk_count xs.length ((xs.length / 3 + k) / k * 3)) (Borrow.Base64.chunk_count (text config xs).length ((xs.length / 3 + k) / k * 4))) ⟨sc, xs.length⟩ ⟨dc, (text config xs).length⟩))
          s5.enter (.run .done) s'' → s''.ret = some s3 → SameEnd s (.base64Encode i config ⟨p, xs.length⟩ ⟨q, d⟩) (parBack dp (text config xs).length s3).leave
            (.ok ⟨place s q, (text config xs).length⟩ (s.mem.write (place s q) (text config xs))) := fun s'' s3 hst e3 => by
      obtain ⟨-, hd⟩ := hsec hst
      obtain ⟨_, e3', hmem, haft⟩ := hd rfl
      cases e3.symm.trans e3'
      have := R.back _ haft
      rw [hmem, R.mem] at this
      cases hb : parBack dp (text config xs).length s3 with
      | ok r s8 =>
        rw [hb] at this
        obtain ⟨g1, s9, g2, g3, g4, g5⟩ := this
        rw [eG] at g4
        unfold Result.leave
        dsimp only
        rw [g2]
        exact ⟨g3.trans g1, g4, g5⟩
      | err | panic | ub => rw [hb] at this; exact this.elim
    refine ⟨fun r hr => ?_, ?_⟩
    · cases hr with
      | par h' hst hr => rw [hX] at h'; cases h'; exact hpar _ _ hst hr
      | held h' hst hr =>
        rw [hX] at h'; cases h'
        obtain ⟨_, e, -⟩ := (hsec hst).2 rfl
        rw [hr] at e; cases e
      | bad h' hst hbad => rw [hX] at h'; cases h'; exact ((hsec hst).1 hbad).elim
      | seq h' | err h' | ub h' | panic h' => rw [hX] at h'; cases h'
    · rcases ends (.run (.job i config ((xs.length / 3 + k) / k * 3) ((xs.length / 3 + k) / k * 4)
        (min (Borrow.Base64.chunk_count xs.length ((xs.length / 3 + k) / k * 3)) (Borrow.Base64.chunk_count (text config xs).length ((xs.length / 3 + k) / k * 4))) ⟨sc, xs.length⟩ ⟨dc, (text config xs).length⟩))
          s5.enter with ⟨s'', hst⟩ | ⟨t, s'', hst, hbad⟩
      · obtain ⟨_, e, -⟩ := (hsec hst).2 rfl
        exact ⟨_, .par hX hst e⟩
      · exact ⟨_, .bad hX hst hbad⟩
  | err | panic | ub => rw [hX] at key'; exact key'.elim

open Simd.Base64 in
/-- The destination is too short for the path with threads. -/
theorem par_short {Pl : Plat} {i : Option Isa} {config : Config} {p q : Ptr} {n d k : Nat} (s : State) (hs : Sound s) (hl : Lends s (.base64Encode i config ⟨p, n⟩ ⟨q, d⟩))
    (ho : NoOverlap (place s p) n (place s q) d) (hm : n ≤ Pl.isizeMax) (h : d < encLen config.extra.padding n) (hsp : Splits k n) :
    Tree.Base64.par_encode Pl k i config ⟨p, n⟩ ⟨q, d⟩ s.enter = .panic := by
  obtain ⟨h1, h2, h3⟩ := id hsp
  have hre : Readable s p n := hl.readable
  have hmu : Mutable s q d := hl.mutable
  have hu := isizeMax_le Pl
  have hfit := encLen_fits Pl config.extra.padding n (by omega)
  have e1 : Pl.mulU k 4096 = some (k * 4096) := if_pos (by omega)
  have e5 := encoded_length_unchecked_eq Pl n config hfit
  have hcond : ¬ (n < k * 4096 ∨ k < 2 ∨ n / 3 < k) := by omega
  have key : Sim (Tree.Base64.par_encode Pl k i config ⟨p, n⟩ ⟨q, d⟩ s.enter) (.panic : Out Unit) (fun _ _ _ => False) (fun _ => False) := by
    unfold Tree.Base64.par_encode
    simp only [e1, lift_bind, if_neg hcond, e5]
    refine Sim.left (x := arg .shared p n) (s := s.enter) (E' := fun _ => False) (retag_sim (s := s.enter) hre.enter) ?_
    rintro _ s1 - ⟨rfl, g1⟩
    replace g1 : Retagged { s with guard := [] :: s.guard } s1 true .shared p n := g1
    refine Sim.left (slice_mut_sim (g1.sound (sound_enter hs) hre.1) (g1.other hs hmu fun b i h h' => noOverlap_pt ho h h')) ?_
    rintro r s2 - ⟨g2, -, t2⟩
    refine Sim.left (x := retag .mut r d) (E' := fun _ => False) (retag_sim t2.readable) ?_
    rintro _ s3 - ⟨rfl, g3⟩
    obtain ⟨s4, e4, -⟩ := retag_ok (s := s3.enter) (p := ⟨s2.next, r.off⟩) (n := d) (k := .mut) (prot := true) (g3.mutable g2.sound t2).readable.enter
    have ec : call (arg .mut ⟨s2.next, r.off⟩ d >>= fun dp => prog (assert (encLen config.extra.padding n ≤ d)) >>= fun _ => retag .mut dp (encLen config.extra.padding n)) s3 = .panic := by
      rw [call_eq]
      show Result.leave (BProg.bind (arg .mut ⟨s2.next, r.off⟩ d) _ s3.enter) = _
      unfold BProg.bind
      rw [show arg .mut ⟨s2.next, r.off⟩ d s3.enter = _ from e4]
      dsimp only
      rw [show decide (encLen config.extra.padding n ≤ d) = false from decide_eq_false (by omega)]
      rfl
    show Sim (BProg.bind _ _ s3) _ _ _
    unfold BProg.bind
    rw [ec]
    trivial
  cases hX : Tree.Base64.par_encode Pl k i config ⟨p, n⟩ ⟨q, d⟩ s.enter with
  | panic => rfl
  | ok | err | ub => rw [hX] at key; exact key.elim

open Simd.Base64 in
/-- C96: `par_encode` with what safe Rust lends it obeys the aliasing rules for references of Tree Borrows, too. Without borrow trees it has exactly one outcome `o`, whatever the number of threads and
whatever they do when. With borrow trees, however Rayon divides the work and whatever the threads do when, there is no undefined behaviour and no data race, where making a reference and ending the protection of one
count as accesses, and the call ends as `o` says. Afterwards the tags that existed before see no change of bytes it did not borrow, at most one read through the lender's tag of the source, and at most one read or one
write through the lender's tag of the destination; nothing is left protected; and a returned slice is a new reference, made from the destination's tag, that may be written through. -/
theorem C96_par_encode (M : Machine) (k : Nat) (i : Option Isa) (config : Config) (src dst : Slice) (s : State) (hr : (Call.base64Encode i config src dst).RunsOn M) (hs : Sound s)
    (hl : Lends s (.base64Encode i config src dst)) (hb : (untag s (.base64Encode i config src dst)).Borrows M.P s.mem) :
    ∃ o, (∀ o', Fork.Outcome (Simd.Base64.par_encode M.P k i config ⟨place s src.ptr, src.len⟩ ⟨place s dst.ptr, dst.len⟩) s.mem o' ↔ o' = o) ∧
      (∀ r, Split.Outcome (Tree.Base64.par_encode M.P k i config src dst) s r → SameEnd s (.base64Encode i config src dst) r o) ∧
      ∃ r, Split.Outcome (Tree.Base64.par_encode M.P k i config src dst) s r := by
  obtain ⟨p, n⟩ := src; obtain ⟨q, d⟩ := dst
  obtain ⟨⟨xs, hl', hx⟩, hw, hP, hP', ho⟩ := id hb
  obtain rfl : xs.length = n := hl'
  obtain ⟨hi, url, pad, hv⟩ := id hr
  have hi := Dispatch.Runs.ne_sse2 hi (by decide)
  have hP : xs.length ≤ M.P.isizeMax := hP
  have ho : NoOverlap (place s p) xs.length (place s q) d := ho
  by_cases hk : k * 4096 ≤ M.P.usizeMax
  · by_cases hsp : Splits k xs.length
    · by_cases hd : (text config xs).length ≤ d
      · obtain ⟨m', hw', ho'⟩ := C62_par_encode M.P hi hv s.mem (place s p) (place s q) xs d k hx hw ho hk hP (by rw [← hv.text]; exact hd)
        rw [← hv.text, hw'.eq, ← hv.text] at ho'
        exact ⟨_, ho', par_threads hi s hs hl hx hw ho hP hd hsp⟩
      · refine ⟨.panic, fun o' => ?_, onlyEnd_panic (par_short s hs hl ho hP (by rw [← text_length]; omega) hsp)⟩
        have := C62_short M.P hi hv s.mem (place s p) (place s q) xs d k hk hP (by rw [← hv.text]; omega) o'
        rw [if_pos hsp] at this
        exact this
    · refine ⟨_, fun o' => ?_, par_seq M s hr hs hl hb hk hsp⟩
      have e := par_encode_seq M.P i config ⟨place s p, xs.length⟩ ⟨place s q, d⟩ k hk hsp s.mem
      have hf := (par_seq M s hr hs hl hb hk hsp).2
      cases ho : (Simd.Base64.encode M.P i config ⟨place s p, xs.length⟩ ⟨place s q, d⟩).run s.mem with
      | ok r m => rw [ho] at e; exact fork_seq e o'
      | err m => rw [ho] at e; exact fork_err e o'
      | panic => rw [ho] at e; exact fork_panic e o'
      | ub =>
        obtain ⟨g, r, hr'⟩ := par_seq M s hr hs hl hb hk hsp
        have := g r hr'
        rw [ho] at this
        unfold SameEnd at this
        cases r <;> exact this.elim
  · have e1 : M.P.mulU k 4096 = none := if_neg hk
    refine ⟨.panic, fork_panic ?_, onlyEnd_panic ?_⟩
    · unfold Simd.Base64.par_encode
      rw [e1]; rfl
    · obtain ⟨s1, es, -⟩ := retag_ok (s := s.enter) (p := p) (n := xs.length) (k := .shared) (prot := true) hl.readable.enter
      unfold Tree.Base64.par_encode
      rw [e1]
      show BProg.bind (arg .shared p xs.length) _ s.enter = _
      unfold BProg.bind
      rw [show arg .shared p xs.length s.enter = _ from es]
      rfl

/-- C96: no execution of the threads of a parallel section goes on forever, and none gets stuck. -/
theorem C96_terminates (a : Act) (s : State) :
    (¬ ∃ f : Nat → Thread × State, f 0 = (.run a, s) ∧ ∀ n, (f n).1.Step (f n).2 (some (f (n + 1)))) ∧
    ∀ t s', Thread.Steps (.run a) s t s' → t = .run .done ∨ ∃ o, t.Step s' o :=
  ⟨fun ⟨f, _, hf⟩ => no_forever f hf, fun t s' _ => can_step t s'⟩

/-! ### The hypotheses are met -/

/-- Two allocations of 20000 bytes, with their owners' tags. -/
def wide : State := { owned with mem := ⟨2, fun _ => 20000, fun _ _ => some 7#8⟩ }

theorem sound_wide : Sound wide :=
  ⟨sound_owned.guard, fun t h => h, sound_owned.self, sound_owned.old, sound_owned.home, sound_owned.trans, sound_owned.line⟩

theorem allowed_wide {w : Bool} {t b i : Nat} (hb : t = b) (hi : i < 20000) : Allowed wide w t b i := by
  refine ⟨hi, rfl, fun u hu => ?_⟩
  obtain rfl : u = b := hu.2
  subst hb
  simp [State.step, wide, owned, Cell.step, Perm.step]

theorem lends_wide {α : Type} (c : Call α) (h : c.shared.1.buf < 2) (h' : c.exclusive.1.buf < 2) (h1 : c.shared.1.off + c.shared.2 ≤ 20000) (h2 : c.exclusive.1.off + c.exclusive.2 ≤ 20000) : Lends wide c :=
  ⟨⟨h, fun _ _ hi => allowed_wide hi.1.symm (Nat.lt_of_lt_of_le hi.2.2 h1)⟩, ⟨h', fun _ _ hi => allowed_wide hi.1.symm (Nat.lt_of_lt_of_le hi.2.2 h2)⟩⟩

/-- 9000 bytes are encoded by two threads. -/
example : Simd.Base64.Splits 2 9000 ∧ ∃ o, (∀ o', Fork.Outcome (Simd.Base64.par_encode sender.P 2 (some .avx2) Simd.Base64.STANDARD ⟨⟨0, 2⟩, 9000⟩ ⟨⟨1, 3⟩, 12000⟩) wide.mem o' ↔ o' = o) ∧
    (∀ r, Split.Outcome (Tree.Base64.par_encode sender.P 2 (some .avx2) Simd.Base64.STANDARD ⟨⟨0, 2⟩, 9000⟩ ⟨⟨1, 3⟩, 12000⟩) wide r →
      SameEnd wide (.base64Encode (some .avx2) Simd.Base64.STANDARD ⟨⟨0, 2⟩, 9000⟩ ⟨⟨1, 3⟩, 12000⟩) r o) ∧
    ∃ r, Split.Outcome (Tree.Base64.par_encode sender.P 2 (some .avx2) Simd.Base64.STANDARD ⟨⟨0, 2⟩, 9000⟩ ⟨⟨1, 3⟩, 12000⟩) wide r := by
  have hP : 20000 ≤ sender.P.isizeMax := by decide
  exact ⟨by decide, C96_par_encode sender 2 (some .avx2) Simd.Base64.STANDARD ⟨⟨0, 2⟩, 9000⟩ ⟨⟨1, 3⟩, 12000⟩ wide ⟨Dispatch.runs_first _ _ _ (by decide) (by decide), false, true, .inl ⟨rfl, rfl, rfl⟩⟩
    sound_wide (lends_wide _ (show 0 < 2 by decide) (show 1 < 2 by decide) (show 2 + 9000 ≤ 20000 by decide) (show 3 + 12000 ≤ 20000 by decide))
    ⟨⟨List.replicate 9000 7#8, List.length_replicate, by rw [List.length_replicate]; exact show 2 + 9000 ≤ 20000 by decide, fun i h => by rw [List.getElem_replicate]; rfl⟩,
      show 3 + 12000 ≤ 20000 by decide, Nat.le_trans (show 9000 ≤ 20000 by decide) hP, Nat.le_trans (show 12000 ≤ 20000 by decide) hP, noOverlap_of_ne (show (0 : Nat) ≠ 1 by decide) _ _⟩⟩

/-! ### The rules are not empty -/

/-- Threads that store to the same byte have a data race. -/
example : (Thread.join (.run (.store ⟨0, 2⟩ [1#8] .done)) (.run (.store ⟨0, 2⟩ [2#8] .done)) .done).Step owned none :=
  .race (.run _) (.run _) ⟨0, 2, .inl ⟨⟨rfl, Nat.le_refl _, by decide⟩, .inl ⟨rfl, Nat.le_refl _, by decide⟩⟩⟩

/-- What a job's `&mut` argument points to may not be written through another reference until the job has returned. -/
example : ∃ t s, Thread.Steps (.run (.retag true .mut ⟨0, 2⟩ 4 fun _ => .retag false .mut ⟨0, 2⟩ 4 fun r => .store r [1#8] .done)) owned.enter t s ∧ t.Step s none :=
  ⟨_, _, .tail (.tail .refl (.act rfl)) (.act rfl), .fail rfl (by decide)⟩

/-- After the return it may. -/
example : ∃ s, Thread.Steps (.run (.retag true .mut ⟨0, 2⟩ 4 fun l => .ret [l.buf] <| .retag false .mut ⟨0, 2⟩ 4 fun r => .store r [1#8] .done)) owned.enter (.run .done) s :=
  ⟨_, .tail (.tail (.tail (.tail .refl (.act rfl)) (.act rfl)) (.act rfl)) (.act rfl)⟩

/-- If both halves of a job get a `&mut` to all of the destination, the second one may not write where the first one has written, even if it waits for it. -/
example : ∃ t s, Thread.Steps (.run (.retag false .mut ⟨0, 2⟩ 4 fun l => .retag false .mut ⟨0, 2⟩ 4 fun r => .store l [1#8] <| .store r [2#8] .done)) owned.enter t s ∧ t.Step s none :=
  ⟨_, _, .tail (.tail (.tail .refl (.act rfl)) (.act rfl)) (.act rfl), .fail rfl (by decide)⟩

/-- The end of the protection of what a job has written is an access: another thread may not read it at the same time. -/
example : ∃ l r s, Thread.Steps (.run (.retag true .mut ⟨0, 2⟩ 4 fun p => .store p [1#8] <| .fork (.ret [p.buf] .done) (.load p 1 fun _ => .done) .done)) owned.enter (.join l r .done) s ∧
    (Thread.join l r .done).Step s none :=
  ⟨_, _, _, .tail (.tail (.tail .refl (.act rfl)) (.act rfl)) .fork, .race (.run _) (.run _) ⟨0, 2, .inl ⟨⟨2, .head _, by decide, by decide⟩, .inr ⟨rfl, Nat.le_refl _, by decide⟩⟩⟩⟩

/-- A panic in a thread is not lost. -/
example (s : State) : (Thread.run (Act.ofProg .panic .done)).Step s none ∧ (Thread.run (Act.ofProg .ub .done)).Step s none := ⟨.fail rfl rfl, .fail rfl rfl⟩

end Simd.Tree
