import Verif.Lemmas.BorrowThreads
import Verif.Lemmas.Parallel
import Verif.Lemmas.FootprintBase
/-
Threads with borrow stacks: the jobs of `par_encode`.
-/
namespace Simd.Borrow
open Spec

variable {g : Goal} {W : Nat → Nat → Prop} {s : State} {p q P Q : Ptr} {n m : Nat}

/-! ### Programs in threads -/

unseal Uses in
theorem keeps_prog {x : Prog Unit} {k : Act} {μ μ' : Mem} (hrun : x.run μ = .ok () μ') (hin : Inside (In p n) (In q m) (x.trace μ)) (hna : NoAlloc x) (hpq : p.buf ≠ q.buf)
    (K : Know g W s) (hs : Src g s p P n) (hd : Dst W s q Q m) (hzp : μ.size p.buf ≤ g.size P.buf) (hzq : μ.size q.buf ≤ g.size Q.buf)
    (hz : ∀ b, b ≠ p.buf → b ≠ q.buf → μ.size b = 0) (hcp : ∀ i, In p n p.buf i → g.source P.buf i = μ.cell p.buf i) (hcq : ∀ i, In q m q.buf i → s.mem.cell Q.buf i = μ.cell q.buf i)
    (hn : ∀ s', Know g W s' → Moves g (fun b i => ¬ W b i ∨ In Q m b i) s s' → (∀ i, In q m q.buf i → s'.mem.cell Q.buf i = μ'.cell q.buf i) → Keeps g W k s') :
    Keeps g W (Act.ofProg x k) s := by
  induction x generalizing μ s with
  | pure a => cases hrun; exact hn s K (.refl _) hcq
  | err => cases hrun
  | panic => cases hrun
  | ub => cases hrun
  | alloc n k ih => exact hna.elim
  | chk p' x ih =>
    simp only [Prog.run] at hrun
    split at hrun
    case isFalse => cases hrun
    rename_i hle
    simp only [Prog.trace, if_pos hle] at hin
    refine .mk rfl fun s1 m1 => ⟨Act.ofProg x k, s1, ?_, .refl _, nofun, nofun, ?_⟩
    · simp only [Act.ofProg, Act.step]
      rw [if_pos]
      rw [(K.rely m1).size]
      by_cases h1 : p'.buf = p.buf
      · rw [h1, (hs.moves m1).home]; rw [h1] at hle; omega
      · by_cases h2 : p'.buf = q.buf
        · rw [h2, (hd.rely K m1).home]; rw [h2] at hle; omega
        · rw [hz _ h1 h2] at hle; omega
    · refine ih hrun hin hna (K.rely m1) (hs.moves m1) (hd.rely K m1) hzp hzq hz hcp (fun i hi => ?_) fun s' K' m' => hn s' K' ((m1.mono fun b i h => .inl h).trans m')
      refine (m1.cell _ _ (.inl fun h => h (hd.top _ _ ?_).1)).trans (hcq i hi)
      exact ⟨rfl, by rw [← hd.off]; exact hi.2.1, by rw [← hd.off]; exact hi.2.2⟩
  | load p' n' f ih =>
    simp only [Prog.run] at hrun
    cases hr : μ.read p' n' with
    | none => rw [hr] at hrun; cases hrun
    | some bs =>
      rw [hr] at hrun
      simp only [Prog.trace, hr] at hin
      have hin0 : ∀ b i, In p' n' b i → In p n b i := hin (.load p' n') (List.mem_cons_self ..)
      refine .mk rfl fun s1 m1 => ?_
      have K1 := K.rely m1
      have hs1 := hs.moves m1
      have hd1 := hd.rely K m1
      have hhome : ∀ b i, In (place s1 p') n' b i → p'.buf = p.buf ∧ In P n b i := by
        rintro b i ⟨rfl, h2, h3⟩
        have h := hin0 p'.buf i ⟨rfl, h2, h3⟩
        refine ⟨h.1, ?_, ?_, ?_⟩
        · show s1.home p'.buf = P.buf
          rw [h.1]; exact hs1.home
        · rw [← hs1.off]; exact h.2.1
        · rw [← hs1.off]; exact h.2.2
      obtain ⟨S, e1, e2, e3⟩ := touch_ok (s := s1) (f := Stack.read p'.buf) (p := p') (n := n') fun b i hi => by
        obtain ⟨h1, h2⟩ := hhome b i hi
        rw [h1, (hs1.read b i h2).2]; rfl
      have hS : S = s1.stack := by
        funext b i
        by_cases hi : In (place s1 p') n' b i
        · obtain ⟨h1, h2⟩ := hhome b i hi
          have := e2 b i hi
          rw [h1, (hs1.read b i h2).2] at this
          exact (Option.some.inj this).symm
        · exact e3 b i hi
      have hread : s1.mem.read ⟨s1.home p'.buf, p'.off⟩ n' = some bs := by
        rw [← hr]
        unfold Mem.read at hr ⊢
        split at hr
        case isFalse => cases hr
        rename_i hle
        rw [if_pos hle, if_pos]
        · refine readFrom_ren n' p'.off fun i h1 h2 => ?_
          have h := hin0 p'.buf i ⟨rfl, h1, h2⟩
          have hb := hhome _ _ ⟨rfl, h1, h2⟩
          have hP : In P n P.buf i := ⟨rfl, hb.2.2⟩
          rw [h.1, hs1.home, K1.source _ _ (hs1.read _ _ hP).1]
          exact hcp i ⟨rfl, h.2⟩
        · dsimp only
          rw [K1.size]
          by_cases h1 : p'.buf = p.buf
          · rw [h1, hs1.home]; rw [h1] at hle; omega
          · by_cases h2 : p'.buf = q.buf
            · rw [h2, hd1.home]; rw [h2] at hle; omega
            · rw [hz _ h1 h2] at hle; omega
      refine ⟨Act.ofProg (f bs) k, s1, ?_, .refl _, nofun, fun b i hb => .inr (hs1.read b i (hhome b i hb).2).1, ?_⟩
      · simp only [Act.ofProg, Act.step, e1, hread, hS]
      · refine ih bs hrun hin.tail (hna.2 bs) K1 hs1 hd1 hzp hzq hz hcp (fun i hi => ?_) fun s' K' m' => hn s' K' ((m1.mono fun b i h => .inl h).trans m')
        refine (m1.cell _ _ (.inl fun h => h (hd.top _ _ ?_).1)).trans (hcq i hi)
        exact ⟨rfl, by rw [← hd.off]; exact hi.2.1, by rw [← hd.off]; exact hi.2.2⟩
  | store p' bs x ih =>
    simp only [Prog.run] at hrun
    split at hrun
    case isFalse => cases hrun
    rename_i hle
    simp only [Prog.trace, if_pos hle] at hin
    have hin0 : ∀ b i, In p' bs.length b i → In q m b i := hin (.store p' bs.length) (List.mem_cons_self ..)
    refine .mk rfl fun s1 m1 => ?_
    have K1 := K.rely m1
    have hs1 := hs.moves m1
    have hd1 := hd.rely K m1
    have hcq1 : ∀ i, In q m q.buf i → s1.mem.cell Q.buf i = μ.cell q.buf i := fun i hi => by
      refine (m1.cell _ _ (.inl fun h => h (hd.top _ _ ?_).1)).trans (hcq i hi)
      exact ⟨rfl, by rw [← hd.off]; exact hi.2.1, by rw [← hd.off]; exact hi.2.2⟩
    have hhome : ∀ b i, In (place s1 p') bs.length b i → p'.buf = q.buf ∧ In Q m b i := by
      rintro b i ⟨rfl, h2, h3⟩
      have h := hin0 p'.buf i ⟨rfl, h2, h3⟩
      refine ⟨h.1, ?_, ?_, ?_⟩
      · show s1.home p'.buf = Q.buf
        rw [h.1]; exact hd1.home
      · rw [← hd1.off]; exact h.2.1
      · rw [← hd1.off]; exact h.2.2
    have hwr : ∀ b i, In (place s1 p') bs.length b i → (s1.stack b i).write p'.buf = some (s1.stack b i) := fun b i hi => by
      obtain ⟨h1, h2⟩ := hhome b i hi
      obtain ⟨-, it, rest, a1, a2, a3⟩ := hd1.top b i h2
      rw [h1, a1, Stack.write_top a2 a3]
    obtain ⟨S, e1, e2, e3⟩ := touch_ok (s := s1) (f := Stack.write p'.buf) (p := p') (n := bs.length) fun b i hi => by rw [hwr b i hi]; rfl
    have hS : S = s1.stack := by
      funext b i
      by_cases hi : In (place s1 p') bs.length b i
      · have := e2 b i hi
        rw [hwr b i hi] at this
        exact (Option.some.inj this).symm
      · exact e3 b i hi
    have hsz : p'.off + bs.length ≤ s1.mem.size (s1.home p'.buf) := by
      rw [K1.size]
      by_cases h1 : p'.buf = p.buf
      · rw [h1, hs1.home]; rw [h1] at hle; omega
      · by_cases h2 : p'.buf = q.buf
        · rw [h2, hd1.home]; rw [h2] at hle; omega
        · rw [hz _ h1 h2] at hle; omega
    have hm : Moves g (In Q m) s1 { s1 with mem := s1.mem.write ⟨s1.home p'.buf, p'.off⟩ bs } := by
      refine ⟨Nat.le_refl _, rfl, fun _ _ => rfl, rfl, rfl, fun b i hb => if_neg fun hi => ?_, fun _ _ _ _ => rfl, fun b i _ => ⟨[], rfl, nofun⟩⟩
      have h := (hhome b i hi).2
      exact hb.elim (fun h' => h' h) fun h' => K1.apart b i (hd1.top b i h).1 h'
    have K2 : Know g W { s1 with mem := s1.mem.write ⟨s1.home p'.buf, p'.off⟩ bs } :=
      ⟨K1.next, K1.frame, K1.size, fun b i hb => (hm.cell b i (.inr hb)).trans (K1.source b i hb), K1.apart, K1.grown⟩
    refine ⟨Act.ofProg x k, { s1 with mem := s1.mem.write ⟨s1.home p'.buf, p'.off⟩ bs }, ?_, hm.mono fun b i hb => (hd1.top b i hb).1,
      fun b i hb => (hd1.top b i (hhome b i hb).2).1, nofun, ?_⟩
    · simp only [Act.ofProg, Act.step, e1, if_pos hsz, hS]
    · refine ih hrun hin.tail hna.2 K2 (hs1.moves hm) ⟨hd1.lt, hd1.at_, hd1.top⟩ hzp hzq hz (fun i hi => ?_) (fun i hi => ?_)
        fun s' K' m' => hn s' K' (((m1.mono fun b i h => .inl h).trans (hm.mono fun b i h => .inr h)).trans m')
      · rw [hcp i hi]
        refine (if_neg fun h => hpq ?_).symm
        exact (hin0 _ _ h).1
      · show (s1.mem.write _ bs).cell _ _ = (μ.write p' bs).cell _ _
        unfold Mem.write
        dsimp only
        by_cases hb : q.buf = p'.buf ∧ p'.off ≤ i ∧ i < p'.off + bs.length
        · rw [if_pos hb, if_pos ⟨by rw [← hb.1, hd1.home], hb.2⟩]
        · rw [if_neg hb, if_neg, hcq1 i hi]
          rintro ⟨h1, h2⟩
          have := hhome _ _ ⟨h1, h2⟩
          exact hb ⟨this.1.symm, h2⟩

/-! ### One chunk -/

section
open Simd.Base64

theorem par_task_run {i : Option Isa} (hi : i ≠ some .sse2) (config : Simd.Base64.Config) {m : Mem} {p q : Ptr} {xs : List Byte} (n : Nat) (hx : HasBytes m p xs)
    (hw : CanWrite m q (encLen config.extra.padding xs.length)) (hd : Apart p q xs.length (encLen config.extra.padding xs.length)) :
    (par_task i config ⟨p, xs.length⟩ ⟨q, n⟩).run m = .ok () (m.write q (text config xs)) := by
  unfold par_task
  by_cases h1 : config.extra.padding = true
  · rw [if_pos h1]
    by_cases h2 : xs.length % 3 = 0
    · rw [if_pos (by exact h2)]
      have hw' : CanWrite m q (encLen (Extra.padding .noPad) xs.length) := by
        unfold CanWrite at *
        unfold encLen at hw ⊢
        rw [if_pos h2] at hw ⊢
        exact hw
      have hd' : Apart p q xs.length (encLen (Extra.padding .noPad) xs.length) := by
        unfold encLen at hd ⊢
        rw [if_pos h2] at hd ⊢
        exact hd
      rw [auto_run (config := ⟨config.kind, .noPad⟩) hi hx hw' hd']
      rw [text_eq, text_eq, h1]
      exact congrArg _ (congrArg _ (enc64_pad_mod3 _ xs h2))
    · rw [if_neg (by exact h2)]
      exact auto_run hi hx hw hd
  · rw [if_neg h1]
    exact auto_run hi hx hw hd

theorem uses_par_task {L V : Nat → Prop} {s d : Slice} (hp : L s.ptr.buf) (hq : V d.ptr.buf) (i : Option Isa) (config : Simd.Base64.Config) : Uses' L V (par_task i config s d) := by
  unfold par_task
  split
  · split <;> exact uses_encode_auto hp hq _ _ _
  · exact uses_encode_auto hp hq _ _ _

/-- The source at `P` is `xs`, and the text for it should get to `Q`. -/
structure Wanted (g : Goal) (config : Simd.Base64.Config) (P Q : Ptr) (xs : List Byte) : Prop where
  ssz : P.off + xs.length ≤ g.size P.buf
  dsz : Q.off + (text config xs).length ≤ g.size Q.buf
  bytes : ∀ j, (h : j < xs.length) → g.source P.buf (P.off + j) = some xs[j]
  chars : ∀ j, j < (text config xs).length → g.target Q.buf (Q.off + j) = (text config xs)[j]?

theorem keeps_task {i : Option Isa} (hi : i ≠ some .sse2) {config : Simd.Base64.Config} {xs : List Byte} {sp dp : Ptr} {k : Act} (T : Wanted g config P Q xs) (K : Know g W s)
    (hs : Src g s sp P xs.length) (hd : Dst W s dp Q (text config xs).length)
    (hn : ∀ s', Know g W s' → Moves g (fun b i => ¬ W b i ∨ In Q (text config xs).length b i) s s' → (∀ b i, In Q (text config xs).length b i → g.Post s' b i) → Keeps g W k s') :
    Keeps g W (Act.task i config ⟨sp, xs.length⟩ ⟨dp, (text config xs).length⟩ k) s := by
  refine keeps_shared (.inl rfl) K hs fun s1 sp K1 m1 hs1 _ => keeps_mut (.inl rfl) K1 (hd.rely K m1) fun s2 dp K2 m2 hd2 _ => keeps_as_ptr K2 (hs1.moves m2) fun s3 sp K3 m3 hs3 _ =>
    keeps_as_mut_ptr K3 (hd2.rely K2 m3) fun s4 dp K4 m4 hd4 l4 => ?_
  have hs4 := hs3.moves m4
  have hpq : sp.buf ≠ dp.buf := Nat.ne_of_lt (Nat.lt_of_lt_of_le hs3.lt l4)
  generalize hμ : (⟨0, fun b => if b = sp.buf then g.size P.buf else if b = dp.buf then g.size Q.buf else 0,
    fun b i => if b = sp.buf then g.source P.buf i else if b = dp.buf then s4.mem.cell Q.buf i else none⟩ : Mem) = μ
  have z1 : μ.size sp.buf = g.size P.buf := by rw [← hμ]; exact if_pos rfl
  have z2 : μ.size dp.buf = g.size Q.buf := by rw [← hμ]; exact (if_neg hpq.symm).trans (if_pos rfl)
  have z3 : ∀ b, b ≠ sp.buf → b ≠ dp.buf → μ.size b = 0 := fun b h1 h2 => by rw [← hμ]; exact (if_neg h1).trans (if_neg h2)
  have c1 : ∀ i, μ.cell sp.buf i = g.source P.buf i := fun i => by rw [← hμ]; exact if_pos rfl
  have c2 : ∀ i, μ.cell dp.buf i = s4.mem.cell Q.buf i := fun i => by rw [← hμ]; exact (if_neg hpq.symm).trans (if_pos rfl)
  have hx : HasBytes μ sp xs := ⟨by rw [z1, hs4.off]; exact T.ssz, fun j hj => by rw [c1, hs4.off]; exact T.bytes j hj⟩
  have hx' : HasBytes (μ.keep sp xs.length) sp xs := ⟨hx.1, fun j hj => (if_pos ⟨rfl, by omega, by omega⟩).trans (hx.2 j hj)⟩
  have hw : CanWrite μ dp (encLen config.extra.padding xs.length) := by
    have := T.dsz
    rw [text_length] at this
    unfold CanWrite; rw [z2, hd4.off]; exact this
  have hin : Inside (In sp xs.length) (In dp (text config xs).length) ((par_task i config ⟨sp, xs.length⟩ ⟨dp, (text config xs).length⟩).trace μ) := by
    have := confined (d := (text config xs).length) hpq (uses_par_task (L := (· = sp.buf)) (V := (· = dp.buf)) (s := ⟨sp, xs.length⟩) (d := ⟨dp, (text config xs).length⟩) rfl rfl i config)
      (.inl ⟨(), par_task_run hi config (text config xs).length hx' hw (.inl hpq)⟩) fun b o hb => if_neg fun h => hb (o - dp.off) (by omega) ⟨h.1, by omega⟩
    intro a ha
    have := this a ha
    cases a with
    | load r k =>
      rintro b j ⟨rfl, h2, h3⟩
      have := this (j - r.off) (by omega)
      rwa [show r.off + (j - r.off) = j by omega] at this
    | store r k =>
      rintro b j ⟨rfl, h2, h3⟩
      have := this (j - r.off) (by omega)
      rwa [show r.off + (j - r.off) = j by omega] at this
  refine keeps_prog (par_task_run hi config (text config xs).length hx hw (.inl hpq)) hin (uses_par_task trivial trivial i config) hpq K4 hs4 hd4 (Nat.le_of_eq z1) (Nat.le_of_eq z2) z3
    (fun i _ => (c1 i).symm) (fun i _ => (c2 i).symm) fun s5 K5 m5 h5 => ?_
  refine hn s5 K5 ((((m1.mono fun b i h => .inl h).trans m2).trans (m3.mono fun b i h => .inl h)).trans (m4.trans m5)) fun b j hb => ⟨?_, K5.grown b j (hd4.top b j hb).1⟩
  obtain ⟨rfl, h1, h2⟩ := hb
  have hj : In dp (text config xs).length dp.buf j := ⟨rfl, by rw [hd4.off]; exact h1, by rw [hd4.off]; exact h2⟩
  rw [h5 j hj]
  refine (if_pos hj).trans ?_
  have := T.chars (j - Q.off) (by omega)
  rw [show Q.off + (j - Q.off) = j by omega] at this
  rw [this, hd4.off]

/-! ### Jobs -/

theorem text_split (config : Simd.Base64.Config) (c : Nat) (xs : List Byte) :
    text config xs = text config (xs.take (min (c * 3) xs.length)) ++ text config (xs.drop (min (c * 3) xs.length)) ∧
      (text config (xs.take (min (c * 3) xs.length))).length = min (c * 4) (text config xs).length := by
  by_cases h : c * 3 ≤ xs.length
  · rw [Nat.min_eq_left h]
    have hl : (xs.take (c * 3)).length = c * 3 := by rw [List.length_take]; omega
    have e := text_append config (xs := xs.take (c * 3)) (ys := xs.drop (c * 3)) (by omega)
    rw [List.take_append_drop] at e
    have het : encLen config.extra.padding (c * 3) = c * 4 := by unfold encLen; rw [if_pos (by omega)]; omega
    have htl : (text config (xs.take (c * 3))).length = c * 4 := by rw [text_length, hl, het]
    refine ⟨e, ?_⟩
    have := congrArg List.length e
    rw [List.length_append] at this
    omega
  · rw [Nat.min_eq_right (by omega), List.take_of_length_le (Nat.le_refl _), List.drop_of_length_le (Nat.le_refl _)]
    have h0 : text config [] = [] := List.eq_nil_of_length_eq_zero (by rw [text_length]; rfl)
    refine ⟨by rw [h0, List.append_nil], (Nat.min_eq_right ?_).symm⟩
    rw [text_length]
    unfold encLen; split <;> [skip; split] <;> omega

theorem Wanted.take {config : Simd.Base64.Config} {xs : List Byte} (T : Wanted g config P Q xs) (c : Nat) : Wanted g config P Q (xs.take (min (c * 3) xs.length)) := by
  obtain ⟨e, el⟩ := text_split config c xs
  have hl := congrArg List.length e
  rw [List.length_append] at hl
  obtain ⟨t1, t2, t3, t4⟩ := T
  refine ⟨by rw [List.length_take]; omega, by omega, fun j hj => ?_, fun j hj => ?_⟩
  · rw [List.length_take] at hj
    rw [t3 j (by omega), List.getElem_take]
  · rw [t4 j (by omega), e, List.getElem?_append_left hj]

theorem Wanted.drop {config : Simd.Base64.Config} {xs : List Byte} (T : Wanted g config P Q xs) (c : Nat) :
    Wanted g config (P.add (min (c * 3) xs.length)) (Q.add (min (c * 4) (text config xs).length)) (xs.drop (min (c * 3) xs.length)) := by
  obtain ⟨e, el⟩ := text_split config c xs
  have hl := congrArg List.length e
  rw [List.length_append] at hl
  obtain ⟨t1, t2, t3, t4⟩ := T
  refine ⟨?_, ?_, fun j hj => ?_, fun j hj => ?_⟩
  · rw [List.length_drop]; simp only [Ptr.add]; omega
  · simp only [Ptr.add]; omega
  · rw [List.length_drop] at hj
    simp only [Ptr.add]
    rw [Nat.add_assoc, t3 _ (by omega), List.getElem_drop]
  · simp only [Ptr.add]
    rw [Nat.add_assoc, t4 _ (by omega), ← el]
    conv_lhs => rw [e]
    rw [List.getElem?_append_right (Nat.le_add_right _ _), Nat.add_sub_cancel_left]

theorem drop_len (config : Simd.Base64.Config) (c : Nat) (xs : List Byte) :
    (text config (xs.drop (min (c * 3) xs.length))).length = (text config xs).length - min (c * 4) (text config xs).length := by
  obtain ⟨e, el⟩ := text_split config c xs
  have hl := congrArg List.length e
  rw [List.length_append] at hl
  omega

theorem in_split {k n : Nat} (hk : k ≤ n) (b i : Nat) : In Q n b i ↔ In Q k b i ∨ In (Q.add k) (n - k) b i := by
  constructor
  · rintro ⟨rfl, h2, h3⟩
    by_cases h : i < Q.off + k
    · exact .inl ⟨rfl, h2, h⟩
    · exact .inr ⟨rfl, by simp only [Ptr.add]; omega, by simp only [Ptr.add]; omega⟩
  · rintro (h | h)
    · exact in_mono hk h
    · exact in_add hk h

theorem in_disjoint {k n : Nat} (b i : Nat) (h : In Q k b i) (h' : In (Q.add k) n b i) : False := by
  obtain ⟨-, -, h3⟩ := h
  obtain ⟨-, h5, -⟩ := h'
  simp only [Ptr.add] at h5; omega

theorem keeps_serial {i : Option Isa} (hi : i ≠ some .sse2) {config : Simd.Base64.Config} {c : Nat} {n : Nat} {P Q sp dp : Ptr} {xs : List Byte} {s : State} (T : Wanted g config P Q xs)
    (hn : xs.length ≤ n * (c * 3)) (K : Know g (In Q (text config xs).length) s) (hs : Src g s sp P xs.length) (hd : Dst (In Q (text config xs).length) s dp Q (text config xs).length) :
    Keeps g (In Q (text config xs).length) (Act.serial i config (c * 3) (c * 4) n ⟨sp, xs.length⟩ ⟨dp, (text config xs).length⟩) s := by
  induction n generalizing P Q sp dp xs s with
  | zero =>
    rw [Act.serial]
    refine .done fun b j hb => ?_
    rw [text_length, show xs.length = 0 by omega] at hb
    obtain ⟨-, h1, h2⟩ := hb
    exact absurd h2 (by show ¬ j < Q.off + 0; omega)
  | succ n ih =>
    rw [Act.serial]
    obtain ⟨-, el⟩ := text_split config c xs
    have ed := drop_len config c xs
    have hA : (xs.take (min (c * 3) xs.length)).length = min (c * 3) xs.length := by rw [List.length_take]; omega
    have hA' : (xs.drop (min (c * 3) xs.length)).length = xs.length - min (c * 3) xs.length := List.length_drop
    have hB : min (c * 4) (text config xs).length ≤ (text config xs).length := Nat.min_le_right _ _
    refine keeps_split_at (Nat.min_le_right _ _) T.ssz K hs fun s1 sl sr K1 m1 hl1 hr1 => keeps_split_at_mut hB T.dsz K1 (hd.rely K m1) fun s2 dl dr K2 m2 hl2 hr2 => ?_
    have Tl := T.take c
    have Tr := T.drop c
    have key := keeps_task hi (k := Act.serial i config (c * 3) (c * 4) n ⟨sr, xs.length - min (c * 3) xs.length⟩ ⟨dr, (text config xs).length - min (c * 4) (text config xs).length⟩)
      Tl K2 (sp := sl) (dp := dl) (by rw [hA]; exact hl1.moves m2) (by rw [el]; exact hl2)
    rw [hA, el] at key
    refine key fun s3 K3 m3 post => ?_
    have hr3 := hr2.moves K2 m3 fun b j hb hx => hx.elim (fun h => h (in_add hB hb)) fun h => in_disjoint b j h hb
    have hW := in_split (Q := Q) hB
    refine Keeps.frame (W1 := In (Q.add (min (c * 4) (text config xs).length)) ((text config xs).length - min (c * 4) (text config xs).length)) ?_
      (fun b j => (hW b j).trans Or.comm) (fun b j h h' => in_disjoint b j h' h) (fun b j h => K3.apart b j ((hW b j).2 (.inl h))) post
    have := ih (P := P.add (min (c * 3) xs.length)) (Q := Q.add (min (c * 4) (text config xs).length)) (sp := sr) (dp := dr) (xs := xs.drop (min (c * 3) xs.length)) (s := s3) Tr
      (by rw [hA', Nat.succ_mul] at *; omega) (by rw [ed]; exact K3.sub fun b j h => (hW b j).2 (.inr h)) (by rw [hA']; exact (hr1.moves m2).moves m3)
      (by rw [ed]; exact hr3.sub fun b j h => h)
    rw [ed, hA'] at this
    exact this

theorem keeps_job {i : Option Isa} (hi : i ≠ some .sse2) {config : Simd.Base64.Config} {c : Nat} {n : Nat} {P Q sp dp : Ptr} {xs : List Byte} {s : State} (T : Wanted g config P Q xs)
    (hn : xs.length ≤ n * (c * 3)) (K : Know g (In Q (text config xs).length) s) (hs : Src g s sp P xs.length) (hd : Dst (In Q (text config xs).length) s dp Q (text config xs).length) :
    Keeps g (In Q (text config xs).length) (Act.job i config (c * 3) (c * 4) n ⟨sp, xs.length⟩ ⟨dp, (text config xs).length⟩) s := by
  induction n using Nat.strongRecOn generalizing P Q sp dp xs s with
  | ind n ih =>
    rw [Act.job]
    refine keeps_shared (.inl rfl) K hs fun s1 sp K1 m1 hs1 _ => keeps_mut (.inl rfl) K1 (hd.rely K m1) fun s2 dp K2 m2 hd2 _ => .pick fun j => ?_
    have hs2 := hs1.moves m2
    by_cases hj : 0 < j ∧ j < n
    · rw [dif_pos hj]
      dsimp only
      rw [← Nat.mul_assoc, ← Nat.mul_assoc]
      obtain ⟨-, el⟩ := text_split config (j * c) xs
      have ed := drop_len config (j * c) xs
      have hA : (xs.take (min (j * c * 3) xs.length)).length = min (j * c * 3) xs.length := by rw [List.length_take]; omega
      have hA' : (xs.drop (min (j * c * 3) xs.length)).length = xs.length - min (j * c * 3) xs.length := List.length_drop
      have hB : min (j * c * 4) (text config xs).length ≤ (text config xs).length := Nat.min_le_right _ _
      have hW := in_split (Q := Q) hB
      refine keeps_split_at (Nat.min_le_right _ _) T.ssz K2 hs2 fun s3 sl sr K3 m3 hl3 hr3 => keeps_split_at_mut hB T.dsz K3 (hd2.rely K2 m3) fun s4 dl dr K4 m4 hl4 hr4 => ?_
      refine .fork (W1 := In Q (min (j * c * 4) (text config xs).length)) (W2 := In (Q.add (min (j * c * 4) (text config xs).length)) ((text config xs).length - min (j * c * 4) (text config xs).length))
        hW (fun b j h h' => in_disjoint b j h h') ?_ ?_
      · have := ih j hj.2 (T.take (j * c)) (sp := sl) (dp := dl) (s := s4) (by rw [hA, ← Nat.mul_assoc]; omega) (by rw [el]; exact K4.sub fun b j h => (hW b j).2 (.inl h))
          (by rw [hA]; exact hl3.moves m4) (by rw [el]; exact hl4.sub fun b j h => h)
        rw [el, hA] at this
        exact this
      · have := ih (n - j) (by omega) (T.drop (j * c)) (sp := sr) (dp := dr) (s := s4)
          (by rw [hA', Nat.sub_mul, ← Nat.mul_assoc j c 3]; omega) (by rw [ed]; exact K4.sub fun b j h => (hW b j).2 (.inr h))
          (by rw [hA']; exact hr3.moves m4) (by rw [ed]; exact hr4.sub fun b j h => h)
        rw [ed, hA'] at this
        exact this
    · rw [dif_neg hj]
      exact keeps_serial hi T hn K2 hs2 hd2

end
end Simd.Borrow
