import Verif.Lemmas.TreeThreads
import Verif.Lemmas.BorrowJobs
/-
Threads with borrow trees: the jobs of `par_encode`.
-/
namespace Simd.Tree
open Spec
open Borrow (in_add par_task_run uses_par_task text_split drop_len in_split in_disjoint)

variable {g : Goal} {W : Nat → Nat → Prop} {s : State} {p q P Q : Ptr} {n m : Nat}

/-! ### Programs in threads -/

unseal Uses in
theorem keeps_prog {x : Prog Unit} {k : Act} {μ μ' : Mem} (hrun : x.run μ = .ok () μ') (hin : Inside (In p n) (In q m) (x.trace μ)) (hna : NoAlloc x) (hpq : p.buf ≠ q.buf)
    (K : Know g W s) (hs : Ref g s .shared p P n) (hd : Ref g s .mut q Q m) (hW : ∀ b i, In Q m b i → W b i) (hzp : μ.size p.buf ≤ g.start.mem.size P.buf) (hzq : μ.size q.buf ≤ g.start.mem.size Q.buf)
    (hz : ∀ b, b ≠ p.buf → b ≠ q.buf → μ.size b = 0) (hcp : ∀ i, In p n p.buf i → g.start.mem.cell P.buf i = μ.cell p.buf i) (hcq : ∀ i, In q m q.buf i → s.mem.cell Q.buf i = μ.cell q.buf i)
    (hn : ∀ s', Know g W s' → Moves g (fun b i => ¬ W b i ∨ In Q m b i) s s' → Ref g s' .mut q Q m → (∀ i, In q m q.buf i → s'.mem.cell Q.buf i = μ'.cell q.buf i) → Keeps g W k s') :
    Keeps g W (Act.ofProg x k) s := by
  induction x generalizing μ s with
  | pure a => cases hrun; exact hn s K (.refl K.good) hd hcq
  | err => cases hrun
  | panic => cases hrun
  | ub => cases hrun
  | alloc n k ih => exact hna.elim
  | chk p' x ih =>
    simp only [Prog.run] at hrun
    split at hrun
    case isFalse => cases hrun
    rename_i hle
    simp only [Prog.trace, if_pos hle] at hin
    refine .mk rfl fun s1 m1 => ⟨Act.ofProg x k, s1, ?_, .refl m1.good, nofun, nofun, ?_⟩
    · simp only [Act.ofProg, Act.step]
      rw [if_pos]
      rw [m1.good.size]
      by_cases h1 : p'.buf = p.buf
      · rw [h1, (hs.src m1).home]; rw [h1] at hle; omega
      · by_cases h2 : p'.buf = q.buf
        · rw [h2, (hd.rely hW m1).home]; rw [h2] at hle; omega
        · rw [hz _ h1 h2] at hle; omega
    · refine ih hrun hin hna (K.moves m1) (hs.src m1) (hd.rely hW m1) hzp hzq hz hcp (fun i hi => ?_) fun s' K' m' => hn s' K' ((m1.mono fun b i h => .inl h).trans m')
      refine (m1.cell _ _ fun h => h (hW _ _ ?_)).trans (hcq i hi)
      exact ⟨rfl, by rw [← hd.off]; exact hi.2.1, by rw [← hd.off]; exact hi.2.2⟩
  | load p' n' f ih =>
    simp only [Prog.run] at hrun
    cases hr : μ.read p' n' with
    | none => rw [hr] at hrun; cases hrun
    | some bs =>
      rw [hr] at hrun
      simp only [Prog.trace, hr] at hin
      have hin0 : ∀ b i, In p' n' b i → In p n b i := hin (.load p' n') (List.mem_cons_self ..)
      refine .mk rfl fun s1 m1 => ?_
      have K1 := K.moves m1
      have hs1 := hs.src m1
      have hd1 := hd.rely hW m1
      have hr1 : n' = 0 ∨ p'.buf = p.buf ∧ Ref g s1 .shared p' ⟨P.buf, p'.off⟩ n' ∧ ∀ b i, In ⟨P.buf, p'.off⟩ n' b i → In P n b i := by
        by_cases h0 : n' = 0
        · exact .inl h0
        · have h := (hin0 p'.buf p'.off ⟨rfl, Nat.le_refl _, by omega⟩).1
          have hsub : ∀ b i, In ⟨P.buf, p'.off⟩ n' b i → In P n b i := by
            rintro b i ⟨rfl, h2, h3⟩
            have := hin0 p'.buf i ⟨rfl, h2, h3⟩
            exact ⟨rfl, by rw [← hs1.off]; exact this.2.1, by rw [← hs1.off]; exact this.2.2⟩
          exact .inr ⟨h, ⟨by rw [h]; exact hs1.lt, by unfold place; rw [h, hs1.home], fun b i hb => by rw [h]; exact hs1.reach b i (hsub b i hb)⟩, hsub⟩
      have htouch : ∃ S, s1.touch false p' n' = some S ∧ ∀ b i, Calm g s1 b i (S b i) := by
        rcases hr1 with rfl | ⟨-, hr1, -⟩
        · obtain ⟨S, e1, -, e3⟩ := touch_ok (s := s1) (w := false) (p := p') (n := 0) fun b i hi => absurd hi.2.2 (by have := hi.2.1; omega)
          exact ⟨S, e1, fun b i => .same m1.good fun u _ => by rw [e3 b i fun hi => absurd hi.2.2 (by have := hi.2.1; omega)]⟩
        · exact hr1.touch K1 fun _ => rfl
      obtain ⟨S, e1, e2⟩ := htouch
      have hshared : ∀ b i, In (place s1 p') n' b i → In P n b i ∧ p'.buf = p.buf := fun b i hi => by
        rcases hr1 with rfl | ⟨h, hr1, hsub⟩
        · exact absurd hi.2.2 (by have := hi.2.1; omega)
        · exact ⟨hsub b i (by rw [← hr1.at_]; exact hi), h⟩
      have hread : s1.mem.read ⟨s1.home p'.buf, p'.off⟩ n' = some bs := by
        rw [← hr]
        unfold Mem.read at hr ⊢
        split at hr
        case isFalse => cases hr
        rename_i hle
        rw [if_pos hle, if_pos]
        · refine readFrom_ren n' p'.off fun i h1 h2 => ?_
          have h := hin0 p'.buf i ⟨rfl, h1, h2⟩
          have hP : In P n P.buf i := ⟨rfl, (hshared _ _ ⟨rfl, h1, h2⟩).1.2⟩
          rw [h.1, hs1.home, m1.good.mem _ _ fun hm => Goal.apart (hs1.shared hP) hm]
          exact hcp i ⟨rfl, h.2⟩
        · dsimp only
          rw [m1.good.size]
          by_cases h1 : p'.buf = p.buf
          · rw [h1, hs1.home]; rw [h1] at hle; omega
          · by_cases h2 : p'.buf = q.buf
            · rw [h2, hd1.home]; rw [h2] at hle; omega
            · rw [hz _ h1 h2] at hle; omega
      have hm : ∀ X, Moves g X s1 { s1 with cell := S } := fun X => (Moves.cells (X := fun _ _ => False) m1.good e2 rfl rfl (fun _ _ _ => rfl) nofun).mono nofun
      refine ⟨Act.ofProg (f bs) k, { s1 with cell := S }, ?_, hm W, nofun, fun b i hb => .inr (hs1.shared (hshared b i hb).1), ?_⟩
      · simp only [Act.ofProg, Act.step, e1, hread]
      · refine ih bs hrun hin.tail (hna.2 bs) (K1.moves (hm W)) (hs1.src (hm W)) (hd1.rely hW (hm _)) hzp hzq hz hcp (fun i hi => ?_)
          fun s' K' m' => hn s' K' (((m1.trans (hm _)).mono fun b i h => .inl h).trans m')
        refine (m1.cell _ _ fun h => h (hW _ _ ?_)).trans (hcq i hi)
        exact ⟨rfl, by rw [← hd.off]; exact hi.2.1, by rw [← hd.off]; exact hi.2.2⟩
  | store p' bs x ih =>
    simp only [Prog.run] at hrun
    split at hrun
    case isFalse => cases hrun
    rename_i hle
    simp only [Prog.trace, if_pos hle] at hin
    have hin0 : ∀ b i, In p' bs.length b i → In q m b i := hin (.store p' bs.length) (List.mem_cons_self ..)
    refine .mk rfl fun s1 m1 => ?_
    have K1 := K.moves m1
    have hs1 := hs.src m1
    have hd1 := hd.rely hW m1
    have hcq1 : ∀ i, In q m q.buf i → s1.mem.cell Q.buf i = μ.cell q.buf i := fun i hi => by
      refine (m1.cell _ _ fun h => h (hW _ _ ?_)).trans (hcq i hi)
      exact ⟨rfl, by rw [← hd.off]; exact hi.2.1, by rw [← hd.off]; exact hi.2.2⟩
    have hr1 : bs.length = 0 ∨ p'.buf = q.buf ∧ Ref g s1 .mut p' ⟨Q.buf, p'.off⟩ bs.length ∧ ∀ b i, In ⟨Q.buf, p'.off⟩ bs.length b i → In Q m b i := by
      by_cases h0 : bs.length = 0
      · exact .inl h0
      · have h := (hin0 p'.buf p'.off ⟨rfl, Nat.le_refl _, by omega⟩).1
        have hsub : ∀ b i, In ⟨Q.buf, p'.off⟩ bs.length b i → In Q m b i := by
          rintro b i ⟨rfl, h2, h3⟩
          have := hin0 p'.buf i ⟨rfl, h2, h3⟩
          exact ⟨rfl, by rw [← hd1.off]; exact this.2.1, by rw [← hd1.off]; exact this.2.2⟩
        exact .inr ⟨h, ⟨by rw [h]; exact hd1.lt, by unfold place; rw [h, hd1.home], fun b i hb => by rw [h]; exact hd1.reach b i (hsub b i hb)⟩, hsub⟩
    have htouch : ∃ S, s1.touch true p' bs.length = some S ∧ ∀ b i, Calm g s1 b i (S b i) := by
      rcases hr1 with h0 | ⟨-, hr1, -⟩
      · rw [h0]
        obtain ⟨S, e1, -, e3⟩ := touch_ok (s := s1) (w := true) (p := p') (n := 0) fun b i hi => absurd hi.2.2 (by have := hi.2.1; omega)
        exact ⟨S, e1, fun b i => .same m1.good fun u _ => by rw [e3 b i fun hi => absurd hi.2.2 (by have := hi.2.1; omega)]⟩
      · exact hr1.touch K1 nofun
    obtain ⟨S, e1, e2⟩ := htouch
    have hhome : ∀ b i, In (place s1 p') bs.length b i → p'.buf = q.buf ∧ In Q m b i := fun b i hi => by
      rcases hr1 with h0 | ⟨h, hr1, hsub⟩
      · exact absurd hi.2.2 (by have := hi.2.1; omega)
      · exact ⟨h, hsub b i (by rw [← hr1.at_]; exact hi)⟩
    have hsz : p'.off + bs.length ≤ s1.mem.size (s1.home p'.buf) := by
      rw [m1.good.size]
      by_cases h1 : p'.buf = p.buf
      · rw [h1, hs1.home]; rw [h1] at hle; omega
      · by_cases h2 : p'.buf = q.buf
        · rw [h2, hd1.home]; rw [h2] at hle; omega
        · rw [hz _ h1 h2] at hle; omega
    -- the references are as before, the bytes have changed
    have hm0 : Moves g (In Q m) s1 { s1 with cell := S, mem := s1.mem.write ⟨s1.home p'.buf, p'.off⟩ bs } :=
      Moves.cells m1.good e2 rfl rfl (fun b i hb => if_neg fun hi => hb (hhome b i hi).2) fun b i hb => K.mine b i (hW b i hb)
    have hd2 : Ref g { s1 with cell := S, mem := s1.mem.write ⟨s1.home p'.buf, p'.off⟩ bs } .mut q Q m := by
      refine ⟨hd1.lt, hd1.at_, fun b i hb => ?_⟩
      obtain ⟨r, h1, h2, h3⟩ := hd1.reach b i hb
      have hhas : s1.Has b q.buf := ⟨hd1.lt, by rw [hd1.home]; exact hb.1.symm⟩
      exact ⟨r, h1, fun hn => ((e2 b i).acc _ ⟨hn, hhas⟩).trans (h2 hn), h3.imp_right fun ⟨h3, h4, h5⟩ => ⟨h3, h4, fun u hu ha => h5 u hu (((e2 b i).acc u hu).symm.trans ha)⟩⟩
    refine ⟨Act.ofProg x k, { s1 with cell := S, mem := s1.mem.write ⟨s1.home p'.buf, p'.off⟩ bs }, ?_, hm0.mono hW, fun b i hb => hW b i (hhome b i hb).2, nofun, ?_⟩
    · simp only [Act.ofProg, Act.step, e1, if_pos hsz]
    · refine ih hrun hin.tail hna.2 (K1.moves hm0) (hs1.src hm0) hd2 hzp hzq hz (fun i hi => ?_) (fun i hi => ?_)
        fun s' K' m' => hn s' K' (((m1.mono fun b i h => .inl h).trans (hm0.mono fun b i h => .inr h)).trans m')
      · rw [hcp i hi]
        refine (if_neg fun h => hpq ?_).symm
        exact (hin0 _ _ h).1
      · show (s1.mem.write _ bs).cell _ _ = (μ.write p' bs).cell _ _
        unfold Mem.write
        dsimp only
        by_cases hb : q.buf = p'.buf ∧ p'.off ≤ i ∧ i < p'.off + bs.length
        · rw [if_pos hb, if_pos ⟨by rw [← hb.1, hd1.home], hb.2⟩]
        · rw [if_neg hb, if_neg, hcq1 i hi]
          rintro ⟨h1, h2⟩
          have := hhome _ _ ⟨h1, h2⟩
          exact hb ⟨this.1.symm, h2⟩

/-! ### One chunk -/

section
open Simd.Base64

/-- The source at `P` is `xs`, and the text for it should get to `Q`. -/
structure Wanted (g : Goal) (config : Simd.Base64.Config) (P Q : Ptr) (xs : List Byte) : Prop where
  ssz : P.off + xs.length ≤ g.start.mem.size P.buf
  dsz : Q.off + (text config xs).length ≤ g.start.mem.size Q.buf
  bytes : ∀ j, (h : j < xs.length) → g.start.mem.cell P.buf (P.off + j) = some xs[j]
  chars : ∀ j, j < (text config xs).length → g.target Q.buf (Q.off + j) = (text config xs)[j]?

theorem keeps_task {i : Option Isa} (hi : i ≠ some .sse2) {config : Simd.Base64.Config} {xs : List Byte} {sp dp : Ptr} {k : Act} (T : Wanted g config P Q xs) (K : Know g W s)
    (hs : Ref g s .shared sp P xs.length) (hd : Ref g s .mut dp Q (text config xs).length) (hW : ∀ b i, In Q (text config xs).length b i → W b i)
    (hn : ∀ s', Know g W s' → Moves g (fun b i => ¬ W b i ∨ In Q (text config xs).length b i) s s' → (∀ b i, In Q (text config xs).length b i → g.Post s' b i) → Keeps g W k s') :
    Keeps g W (Act.task i config ⟨sp, xs.length⟩ ⟨dp, (text config xs).length⟩ k) s := by
  refine keeps_shared K hs fun s1 sa K1 m1 hs1 _ o1 => keeps_mut K1 (hd.rely hW m1) hW fun s2 da K2 m2 hd2 _ o2 => keeps_as_ptr K2 (hs1.src m2) fun s3 sp K3 m3 hs3 _ =>
    keeps_as_mut_ptr K3 (hd2.rely hW m3) hW fun s4 dp K4 m4 hd4 l4 => ?_
  have hs4 := hs3.src m4
  have hpq : sp.buf ≠ dp.buf := Nat.ne_of_lt (Nat.lt_of_lt_of_le hs3.lt l4)
  generalize hμ : (⟨0, fun b => if b = sp.buf then g.start.mem.size P.buf else if b = dp.buf then g.start.mem.size Q.buf else 0,
    fun b i => if b = sp.buf then g.start.mem.cell P.buf i else if b = dp.buf then s4.mem.cell Q.buf i else none⟩ : Mem) = μ
  have z1 : μ.size sp.buf = g.start.mem.size P.buf := by rw [← hμ]; exact if_pos rfl
  have z2 : μ.size dp.buf = g.start.mem.size Q.buf := by rw [← hμ]; exact (if_neg hpq.symm).trans (if_pos rfl)
  have z3 : ∀ b, b ≠ sp.buf → b ≠ dp.buf → μ.size b = 0 := fun b h1 h2 => by rw [← hμ]; exact (if_neg h1).trans (if_neg h2)
  have c1 : ∀ i, μ.cell sp.buf i = g.start.mem.cell P.buf i := fun i => by rw [← hμ]; exact if_pos rfl
  have c2 : ∀ i, μ.cell dp.buf i = s4.mem.cell Q.buf i := fun i => by rw [← hμ]; exact (if_neg hpq.symm).trans (if_pos rfl)
  have hx : HasBytes μ sp xs := ⟨by rw [z1, hs4.off]; exact T.ssz, fun j hj => by rw [c1, hs4.off]; exact T.bytes j hj⟩
  have hx' : HasBytes (μ.keep sp xs.length) sp xs := ⟨hx.1, fun j hj => (if_pos ⟨rfl, by omega, by omega⟩).trans (hx.2 j hj)⟩
  have hw : CanWrite μ dp (encLen config.extra.padding xs.length) := by
    have := T.dsz
    rw [text_length] at this
    unfold CanWrite; rw [z2, hd4.off]; exact this
  have hin : Inside (In sp xs.length) (In dp (text config xs).length) ((par_task i config ⟨sp, xs.length⟩ ⟨dp, (text config xs).length⟩).trace μ) := by
    have := confined (d := (text config xs).length) hpq (uses_par_task (L := (· = sp.buf)) (V := (· = dp.buf)) (s := ⟨sp, xs.length⟩) (d := ⟨dp, (text config xs).length⟩) rfl rfl i config)
      (.inl ⟨(), par_task_run hi config (text config xs).length hx' hw (.inl hpq)⟩) fun b o hb => if_neg fun h => hb (o - dp.off) (by omega) ⟨h.1, by omega⟩
    intro a ha
    have := this a ha
    cases a with
    | load r k =>
      rintro b j ⟨rfl, h2, h3⟩
      have := this (j - r.off) (by omega)
      rwa [show r.off + (j - r.off) = j by omega] at this
    | store r k =>
      rintro b j ⟨rfl, h2, h3⟩
      have := this (j - r.off) (by omega)
      rwa [show r.off + (j - r.off) = j by omega] at this
  refine keeps_prog (par_task_run hi config (text config xs).length hx hw (.inl hpq)) hin (uses_par_task trivial trivial i config) hpq K4 hs4 hd4 hW (Nat.le_of_eq z1) (Nat.le_of_eq z2) z3
    (fun i _ => (c1 i).symm) (fun i _ => (c2 i).symm) fun s5 K5 m5 hd5 h5 => ?_
  refine keeps_ret K5 (fun t ht => ?_) fun s6 K6 m6 => hn s6 K6 (((((m1.mono fun b i h => .inl h).trans m2).trans (m3.mono fun b i h => .inl h)).trans (m4.trans m5)).trans (m6.mono fun b i h => .inl h))
    fun b j hb => Goal.Post.moves ?_ m6 fun h => h (hW b j hb)
  · rcases List.mem_cons.1 ht with rfl | ht
    · exact ((o2.moves m3).moves m4).moves m5
    · cases List.mem_singleton.1 ht
      exact (((o1.moves m2).moves m3).moves m4).moves m5
  · obtain ⟨rfl, h1, h2⟩ := hb
    have hj : In dp (text config xs).length dp.buf j := ⟨rfl, by rw [hd4.off]; exact h1, by rw [hd4.off]; exact h2⟩
    unfold Goal.Post
    rw [h5 j hj]
    refine (if_pos hj).trans ?_
    have := T.chars (j - Q.off) (by omega)
    rw [show Q.off + (j - Q.off) = j by omega] at this
    rw [this, hd4.off]

/-! ### Jobs -/

theorem Wanted.take {config : Simd.Base64.Config} {xs : List Byte} (T : Wanted g config P Q xs) (c : Nat) : Wanted g config P Q (xs.take (min (c * 3) xs.length)) := by
  obtain ⟨e, el⟩ := text_split config c xs
  have hl := congrArg List.length e
  rw [List.length_append] at hl
  obtain ⟨t1, t2, t3, t4⟩ := T
  refine ⟨by rw [List.length_take]; omega, by omega, fun j hj => ?_, fun j hj => ?_⟩
  · rw [List.length_take] at hj
    rw [t3 j (by omega), List.getElem_take]
  · rw [t4 j (by omega), e, List.getElem?_append_left hj]

theorem Wanted.drop {config : Simd.Base64.Config} {xs : List Byte} (T : Wanted g config P Q xs) (c : Nat) :
    Wanted g config (P.add (min (c * 3) xs.length)) (Q.add (min (c * 4) (text config xs).length)) (xs.drop (min (c * 3) xs.length)) := by
  obtain ⟨e, el⟩ := text_split config c xs
  have hl := congrArg List.length e
  rw [List.length_append] at hl
  obtain ⟨t1, t2, t3, t4⟩ := T
  refine ⟨?_, ?_, fun j hj => ?_, fun j hj => ?_⟩
  · rw [List.length_drop]; simp only [Ptr.add]; omega
  · simp only [Ptr.add]; omega
  · rw [List.length_drop] at hj
    simp only [Ptr.add]
    rw [Nat.add_assoc, t3 _ (by omega), List.getElem_drop]
  · simp only [Ptr.add]
    rw [Nat.add_assoc, t4 _ (by omega), ← el]
    conv_lhs => rw [e]
    rw [List.getElem?_append_right (Nat.le_add_right _ _), Nat.add_sub_cancel_left]

theorem keeps_serial {i : Option Isa} (hi : i ≠ some .sse2) {config : Simd.Base64.Config} {c : Nat} {k : Act} {n : Nat} {P Q sp dp : Ptr} {xs : List Byte} {s : State} (T : Wanted g config P Q xs)
    (hn : xs.length ≤ n * (c * 3)) (K : Know g W s) (hs : Ref g s .shared sp P xs.length) (hd : Ref g s .mut dp Q (text config xs).length) (hW : ∀ b i, In Q (text config xs).length b i → W b i)
    (hk : ∀ s', Know g W s' → Moves g (fun b i => ¬ W b i ∨ In Q (text config xs).length b i) s s' → (∀ b i, In Q (text config xs).length b i → g.Post s' b i) → Keeps g W k s') :
    Keeps g W (Act.serial i config (c * 3) (c * 4) k n ⟨sp, xs.length⟩ ⟨dp, (text config xs).length⟩) s := by
  induction n generalizing P Q sp dp xs s with
  | zero =>
    rw [Act.serial]
    refine hk s K (.refl K.good) fun b j hb => ?_
    rw [text_length, show xs.length = 0 by omega] at hb
    obtain ⟨-, h1, h2⟩ := hb
    exact absurd h2 (by show ¬ j < Q.off + 0; omega)
  | succ n ih =>
    rw [Act.serial]
    obtain ⟨-, el⟩ := text_split config c xs
    have ed := drop_len config c xs
    have hA : (xs.take (min (c * 3) xs.length)).length = min (c * 3) xs.length := by rw [List.length_take]; omega
    have hA' : (xs.drop (min (c * 3) xs.length)).length = xs.length - min (c * 3) xs.length := List.length_drop
    have hB : min (c * 4) (text config xs).length ≤ (text config xs).length := Nat.min_le_right _ _
    have hsp := in_split (Q := Q) hB
    refine keeps_split_at (Nat.min_le_right _ _) T.ssz K hs fun s1 sl sr K1 m1 hl1 hr1 => keeps_split_at_mut hB T.dsz K1 (hd.rely hW m1) hW fun s2 dl dr K2 m2 hl2 hr2 => ?_
    have Tl := T.take c
    have Tr := T.drop c
    have key := keeps_task hi (W := W) (k := Act.serial i config (c * 3) (c * 4) k n ⟨sr, xs.length - min (c * 3) xs.length⟩ ⟨dr, (text config xs).length - min (c * 4) (text config xs).length⟩)
      Tl K2 (sp := sl) (dp := dl) (by rw [hA]; exact hl1.src m2) (by rw [el]; exact hl2) (by rw [el]; exact fun b j h => hW b j ((hsp b j).2 (.inl h)))
    rw [hA, el] at key
    refine key fun s3 K3 m3 post => ?_
    have hWr : ∀ b j, In (Q.add (min (c * 4) (text config xs).length)) ((text config xs).length - min (c * 4) (text config xs).length) b j → W b j := fun b j h => hW b j ((hsp b j).2 (.inr h))
    have hr3 := hr2.moves m3 fun _ b j hb hx => hx.elim (fun h => h (hWr b j hb)) fun h => in_disjoint b j h hb
    have := ih (P := P.add (min (c * 3) xs.length)) (Q := Q.add (min (c * 4) (text config xs).length)) (sp := sr) (dp := dr) (xs := xs.drop (min (c * 3) xs.length)) (s := s3) Tr
      (by rw [hA', Nat.succ_mul] at *; omega) K3 (by rw [hA']; exact (hr1.src m2).src m3) (by rw [ed]; exact hr3) (by rw [ed]; exact hWr)
    rw [ed, hA'] at this
    refine this fun s4 K4 m4 post4 => hk s4 K4 ((((m1.mono fun b i h => .inl h).trans m2).trans (m3.mono fun b j h => h.imp_right fun h => (hsp b j).2 (.inl h))).trans
      (m4.mono fun b j h => h.imp_right fun h => (hsp b j).2 (.inr h))) fun b j hb => ?_
    rcases (hsp b j).1 hb with h | h
    · exact (post b j h).moves m4 fun h' => h'.elim (fun h' => h' (hW b j hb)) fun h' => in_disjoint b j h h'
    · exact post4 b j h

theorem keeps_job {i : Option Isa} (hi : i ≠ some .sse2) {config : Simd.Base64.Config} {c : Nat} {n : Nat} {P Q sp dp : Ptr} {xs : List Byte} {s : State} (T : Wanted g config P Q xs)
    (hn : xs.length ≤ n * (c * 3)) (K : Know g (In Q (text config xs).length) s) (hs : Ref g s .shared sp P xs.length) (hd : Ref g s .mut dp Q (text config xs).length) :
    Keeps g (In Q (text config xs).length) (Act.job i config (c * 3) (c * 4) n ⟨sp, xs.length⟩ ⟨dp, (text config xs).length⟩) s := by
  induction n using Nat.strongRecOn generalizing P Q sp dp xs s with
  | ind n ih =>
    rw [Act.job]
    refine keeps_shared K hs fun s1 sp K1 m1 hs1 _ o1 => keeps_mut K1 (hd.rely (fun _ _ h => h) m1) (fun _ _ h => h) fun s2 dp K2 m2 hd2 _ o2 => .pick fun j => ?_
    have hs2 := hs1.src m2
    have hend : ∀ {s' X}, Moves g X s2 s' → (∀ b i, In Q (text config xs).length b i → g.Post s' b i) → Keeps g (In Q (text config xs).length) (.ret [dp.buf, sp.buf] .done) s' := fun {s' X} m' post => by
      refine keeps_ret (K2.moves m') (fun t ht => ?_) fun s6 K6 m6 => .done fun b j hb => (post b j hb).moves m6 fun h => h hb
      rcases List.mem_cons.1 ht with rfl | ht
      · exact o2.moves m'
      · cases List.mem_singleton.1 ht
        exact (o1.moves m2).moves m'
    by_cases hj : 0 < j ∧ j < n
    · rw [dif_pos hj]
      dsimp only
      rw [← Nat.mul_assoc, ← Nat.mul_assoc]
      obtain ⟨-, el⟩ := text_split config (j * c) xs
      have ed := drop_len config (j * c) xs
      have hA : (xs.take (min (j * c * 3) xs.length)).length = min (j * c * 3) xs.length := by rw [List.length_take]; omega
      have hA' : (xs.drop (min (j * c * 3) xs.length)).length = xs.length - min (j * c * 3) xs.length := List.length_drop
      have hB : min (j * c * 4) (text config xs).length ≤ (text config xs).length := Nat.min_le_right _ _
      have hW := in_split (Q := Q) hB
      refine keeps_split_at (Nat.min_le_right _ _) T.ssz K2 hs2 fun s3 sl sr K3 m3 hl3 hr3 => keeps_split_at_mut hB T.dsz K3 (hd2.rely (fun _ _ h => h) m3) (fun _ _ h => h) fun s4 dl dr K4 m4 hl4 hr4 => ?_
      refine .fork (W1 := In Q (min (j * c * 4) (text config xs).length)) (W2 := In (Q.add (min (j * c * 4) (text config xs).length)) ((text config xs).length - min (j * c * 4) (text config xs).length))
        hW (fun b j h h' => in_disjoint b j h h') ?_ ?_ fun s' m' post => hend (((m3.mono fun _ _ _ => trivial).trans (m4.mono fun _ _ _ => trivial)).trans m') post
      · have := ih j hj.2 (T.take (j * c)) (sp := sl) (dp := dl) (s := s4) (by rw [hA, ← Nat.mul_assoc]; omega) (by rw [el]; exact K4.sub fun b j h => (hW b j).2 (.inl h))
          (by rw [hA]; exact hl3.src m4) (by rw [el]; exact hl4)
        rw [el, hA] at this
        exact this
      · have := ih (n - j) (by omega) (T.drop (j * c)) (sp := sr) (dp := dr) (s := s4)
          (by rw [hA', Nat.sub_mul, ← Nat.mul_assoc j c 3]; omega) (by rw [ed]; exact K4.sub fun b j h => (hW b j).2 (.inr h))
          (by rw [hA']; exact hr3.src m4) (by rw [ed]; exact hr4)
        rw [ed, hA'] at this
        exact this
    · rw [dif_neg hj]
      exact keeps_serial hi T hn K2 hs2 hd2 (fun _ _ h => h) fun s' K' m' post => hend m' post

end
end Simd.Tree
