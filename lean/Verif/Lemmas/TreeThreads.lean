import Verif.Lemmas.TreePar
import Verif.Lemmas.BorrowThreads
/-
Threads with borrow trees: rules for references, accesses and returns.
-/
namespace Simd.Tree
open Spec
open Borrow (in_add)

variable {g : Goal} {W W' X Y : Nat → Nat → Prop} {s s' s1 s2 : State} {p q P Q : Ptr} {n m : Nat} {kind : Kind}

/-- What a thread that has the bytes of `W` knows about the state. -/
structure Know (g : Goal) (W : Nat → Nat → Prop) (s : State) : Prop where
  ok : g.Ok
  mine : ∀ b i, W b i → g.Mine b i
  good : Good g s

theorem Know.moves (K : Know g W s) (h : Moves g X s s') : Know g W s' := ⟨K.ok, K.mine, h.good⟩
theorem Know.sub (K : Know g W s) (h : ∀ b i, W' b i → W b i) : Know g W' s := ⟨K.ok, fun b i hb => K.mine b i (h b i hb), K.good⟩

/-- Tag `t` was made for byte `i` of allocation `b`, to read it or to write it. In the second case all other tags that were made for it are ancestors of `t`. -/
def Reach (g : Goal) (s : State) (kind : Kind) (t b i : Nat) : Prop :=
  ∃ r, g.Line s r t ∧ (g.start.next ≤ t → (s.cell b i t).acc = true) ∧
    (g.loan b i = .shared r ∧ kind = .shared ∨ g.loan b i = .excl r ∧ kind = .mut ∧ ∀ u, g.New s b u → (s.cell b i u).acc = true → s.up t u = true)

/-- `p` points to the `n` bytes at `P` and was made for them. -/
structure Ref (g : Goal) (s : State) (kind : Kind) (p P : Ptr) (n : Nat) : Prop where
  lt : p.buf < s.next
  at_ : place s p = P
  reach : ∀ b i, In P n b i → Reach g s kind p.buf b i

/-- Tag `t` was made in the section by the thread that has the bytes of `W`. -/
structure Own (g : Goal) (W : Nat → Nat → Prop) (s : State) (t : Nat) : Prop where
  lo : g.start.next ≤ t
  hi : t < s.next
  acc : ∀ b i, s.Has b t → (s.cell b i t).acc = true → W b i ∨ g.Shared b i

theorem Own.moves {t : Nat} (h : Own g W s t) (hm : Moves g X s s') : Own g W s' t where
  lo := h.lo
  hi := Nat.lt_of_lt_of_le h.hi hm.next
  acc := fun b i hb ha => by
    have hs : s.Has b t := ⟨h.hi, (hm.home t h.hi).symm.trans hb.2⟩
    exact h.acc b i hs (hm.acc b i t ⟨h.lo, hs⟩ ▸ ha)

theorem Ref.off (h : Ref g s kind p P n) : p.off = P.off := by rw [← h.at_]; rfl
theorem Ref.home (h : Ref g s kind p P n) : s.home p.buf = P.buf := by rw [← h.at_]; rfl
theorem Ref.take (h : Ref g s kind p P n) {k : Nat} (hk : k ≤ n) : Ref g s kind p P k := ⟨h.lt, h.at_, fun b i hb => h.reach b i (in_mono hk hb)⟩
theorem Ref.drop (h : Ref g s kind p P n) {k : Nat} (hk : k ≤ n) : Ref g s kind (p.add k) (P.add k) (n - k) :=
  ⟨h.lt, by show (place s p).add k = _; rw [h.at_], fun b i hb => h.reach b i (in_add hk hb)⟩

theorem Ref.moves (h : Ref g s kind p P n) (hm : Moves g X s s') (hX : kind = .mut → ∀ b i, In P n b i → ¬ X b i) : Ref g s' kind p P n where
  lt := Nat.lt_of_lt_of_le h.lt hm.next
  at_ := (hm.place h.lt).trans h.at_
  reach := fun b i hb => by
    obtain ⟨r, h1, h2, h3⟩ := h.reach b i hb
    have hhas : s.Has b p.buf := ⟨h.lt, by rw [h.home]; exact hb.1.symm⟩
    refine ⟨r, fun v hv => by rw [hm.up _ h.lt]; exact h1 v hv, fun hn => by rw [hm.acc b i _ ⟨hn, hhas⟩]; exact h2 hn, h3.imp_right fun ⟨h3, h4, h5⟩ => ⟨h3, h4, fun u hu ha => ?_⟩⟩
    rw [hm.up _ h.lt]
    by_cases hl : u < s.next
    · have hu' : g.New s b u := ⟨hu.1, hl, (hm.home u hl).symm.trans hu.2.2⟩
      exact h5 u hu' (hm.acc b i u hu' ▸ ha)
    · rcases hm.fresh b i u (by omega) hu.2 ha with hx | hx
      · exact (hX h4 b i hb hx).elim
      · exact (Goal.apart hx ⟨r, h3⟩).elim

theorem Ref.shared (h : Ref g s .shared p P n) {b i : Nat} (hb : In P n b i) : g.Shared b i := by
  obtain ⟨r, -, -, ⟨h, -⟩ | ⟨-, h, -⟩⟩ := h.reach b i hb
  · exact ⟨r, h⟩
  · cases h

theorem Ref.src (h : Ref g s .shared p P n) (hm : Moves g X s s') : Ref g s' .shared p P n := h.moves hm nofun
theorem Ref.rely (h : Ref g s kind p P n) (hW : ∀ b i, In P n b i → W b i) (hm : Rely g W s s') : Ref g s' kind p P n := h.moves hm fun _ b i hb h => h (hW b i hb)

/-! ### Accesses -/

theorem Reach.lent {t b i : Nat} {w : Bool} (h : Reach g s kind t b i) (hw : kind = .shared → w = false) :
    ∃ r, g.Lent b i r w ∧ g.Line s r t ∧ (g.start.next ≤ t → (s.cell b i t).acc = true) ∧ (g.Mine b i → ∀ u, g.New s b u → (s.cell b i u).acc = true → s.up t u = true) := by
  obtain ⟨r, h1, h2, ⟨h3, h4⟩ | ⟨h3, -, h5⟩⟩ := h
  · exact ⟨r, .inr ⟨h3, hw h4⟩, h1, h2, fun hm => (Goal.apart ⟨r, h3⟩ hm).elim⟩
  · exact ⟨r, .inl h3, h1, h2, fun _ => h5⟩

theorem Reach.allowed {t b i : Nat} {w : Bool} (hg : g.Ok) (hs : Good g s) (ht : s.Has b t) (h : Reach g s kind t b i) (hw : kind = .shared → w = false) : Allowed s w t b i := by
  obtain ⟨r, h1, h2, h3, h4⟩ := h.lent hw
  have ha : i < g.start.mem.size b ∧ g.start.freed b = false := by
    rcases h1 with h1 | ⟨h1, -⟩
    · have := hg.write b i r h1; exact ⟨this.1, this.2.1⟩
    · have := hg.read b i r h1; exact ⟨this.1, this.2.1⟩
  refine ⟨by rw [hs.size]; exact ha.1, by rw [hs.freed]; exact ha.2, fun u hu => ?_⟩
  obtain ⟨c, hc, -⟩ := hs.core hg ht h1 h2 h3 hu fun hm hn ha => h4 hm u ⟨hn, hu⟩ ha
  rw [hc]; rfl

theorem Reach.calm {t b i : Nat} {w : Bool} {c : Nat → Cell} (hg : g.Ok) (hs : Good g s) (ht : s.Has b t) (h : Reach g s kind t b i) (hw : kind = .shared → w = false)
    (hc : Accessed s w t b (s.cell b i) c) : Calm g s b i c := by
  obtain ⟨r, h1, h2, h3, h4⟩ := h.lent hw
  exact .access hg hs ht h1 h2 h3 h4 hc

/-- An access through a reference. -/
theorem Ref.touch {w : Bool} (K : Know g W s) (h : Ref g s kind p P n) (hw : kind = .shared → w = false) :
    ∃ S, s.touch w p n = some S ∧ (∀ b i, Calm g s b i (S b i)) := by
  have hhas : ∀ b i, In P n b i → s.Has b p.buf := fun b i hb => ⟨h.lt, by rw [h.home]; exact hb.1.symm⟩
  obtain ⟨S, e1, e2, e3⟩ := touch_ok (s := s) (w := w) (p := p) (n := n) fun b i hb => by
    rw [h.at_] at hb
    exact (h.reach b i hb).allowed K.ok K.good (hhas b i hb) hw
  refine ⟨S, e1, fun b i => ?_⟩
  by_cases hb : In P n b i
  · exact (h.reach b i hb).calm K.ok K.good (hhas b i hb) hw (e2 b i (by rw [h.at_]; exact hb))
  · exact .same K.good fun u _ => by rw [e3 b i (by rw [h.at_]; exact hb)]

/-- Accesses change nothing that the thread or the others rely on. -/
theorem Moves.cells (hs : Good g s) {S : Nat → Nat → Nat → Cell} {μ : Mem} (hS : ∀ b i, Calm g s b i (S b i)) (hz : μ.size = s.mem.size) (hn : μ.nbuf = s.mem.nbuf)
    (hm : ∀ b i, ¬ X b i → μ.cell b i = s.mem.cell b i) (hX : ∀ b i, X b i → g.Mine b i) : Moves g X s { s with cell := S, mem := μ } := by
  have hno : ∀ {b u}, s.next ≤ u → ¬ State.Has { s with cell := S, mem := μ } b u := fun {b u} hu h => by
    have h1 : u < s.next := h.1
    omega
  refine ⟨hs.change ⟨hs.sound.guard, fun t ht => ?_, hs.sound.self, hs.sound.old, hs.sound.home, hs.sound.trans, hs.sound.line⟩ (Nat.le_refl _) hs.guard (fun _ _ => rfl) (fun _ _ => rfl) hz hn rfl
    (fun b i hb => hm b i fun h => hb (hX b i h)) hS fun b i u hu h => (hno hu h).elim, Nat.le_refl _, fun _ _ => rfl, fun _ _ => rfl, hm, hs.next, fun b i u hu => (hS b i).acc u hu,
    fun b i u hu h => (hno hu h).elim⟩
  show s.home t < μ.nbuf
  rw [hn]; exact hs.sound.alloc t ht

/-! ### References -/

theorem retag_ok {prot : Bool} {k : Kind} (h : Readable s p n) : ∃ s', retagWith prot k p n s = .ok ⟨s.next, p.off⟩ s' ∧ Retagged s s' prot k p n := by
  have := retag_sim (prot := prot) (k := k) h (E := fun _ => False)
  cases e : retagWith prot k p n s with
  | ok r s' => rw [e] at this; obtain ⟨-, rfl, h2⟩ := this; exact ⟨s', rfl, h2⟩
  | err s' => rw [e] at this; exact this.elim
  | panic => rw [e] at this; exact this.elim
  | ub => rw [e] at this; exact this.elim

/-- A new reference. -/
theorem Ref.retag {prot : Bool} (K : Know g W s) (h : Ref g s kind p P n) (hW : kind = .mut → ∀ b i, In P n b i → W b i) :
    ∃ s', retagWith prot kind p n s = .ok ⟨s.next, p.off⟩ s' ∧ Moves g (fun b i => kind = .mut ∧ In P n b i) s s' ∧ Ref g s' kind ⟨s.next, p.off⟩ P n ∧ Own g W s' s.next := by
  have hhas : ∀ b i, In P n b i → s.Has b p.buf := fun b i hb => ⟨h.lt, by rw [h.home]; exact hb.1.symm⟩
  have hrd : Readable s p n := ⟨h.lt, fun b i hb => by
    rw [h.at_] at hb
    exact (h.reach b i hb).allowed K.ok K.good (hhas b i hb) fun _ => rfl⟩
  obtain ⟨s', e, hR⟩ := retag_ok (prot := prot) (k := kind) hrd
  have hs := K.good
  have hsn : Sound s' := hR.sound hs.sound h.lt
  have hcalm : ∀ b i, Calm g s b i (s'.cell b i) := fun b i => by
    by_cases hb : In P n b i
    · exact (h.reach b i hb).calm K.ok hs (hhas b i hb) (fun _ => rfl) (hR.inside b i (by rw [h.at_]; exact hb))
    · exact .same hs (hR.outside b i (by rw [h.at_]; exact hb))
  have hnacc : ∀ b i, (s'.cell b i s.next).acc = true → In P n b i := fun b i ha => by
    have := (hR.new b i).2.1 ha
    rwa [h.at_] at this
  have hacc : ∀ b i, In P n b i → (s'.cell b i s.next).acc = true := fun b i ha => (hR.new b i).2.2 (by rw [h.at_]; exact ha)
  have hupn : ∀ {u}, u < s.next → s'.up s.next u = s.up p.buf u := fun {u} hu => by
    rw [hR.up_new, decide_eq_false (show ¬ u = s.next by omega), Bool.false_or]
  have hline : ∀ r, g.Line s r p.buf → g.Line s' r s.next := fun r hr v hv => by
    rw [hupn (by have := hs.next; omega)]; exact hr v hv
  have hlt : ∀ {b u}, s'.Has b u → s.next ≤ u → u = s.next := fun {b u} hu hl => by
    have := hu.1
    rw [hR.next] at this; omega
  have hback : ∀ {b u}, g.New s' b u → u < s.next → g.New s b u := fun {b u} hu hl => ⟨hu.1, hl, (hR.home_old hl).symm.trans hu.2.2⟩
  have hself : s'.up s.next s.next = true := hsn.self _ (by rw [hR.next]; omega)
  have hgood : Good g s' := by
    refine hs.change hsn (by rw [hR.next]; omega) ?_ (fun t ht => hR.home_old ht) (fun t ht => hR.up_old ht) (by rw [hR.mem]) (by rw [hR.mem]) hR.freed (fun _ _ _ => by rw [hR.mem]) hcalm
      fun b i u hu hus ha => ?_
    · obtain ⟨l, el, hl⟩ := hs.guard
      have := hs.next
      refine ⟨if prot then s.next :: l else l, ?_, fun t ht => ?_⟩
      · rw [hR.guard, el]; cases prot <;> rfl
      · rw [hR.next]
        cases prot
        · have := hl t ht; omega
        · rcases List.mem_cons.1 ht with rfl | ht
          · omega
          · have := hl t ht; omega
    · obtain rfl := hlt hus hu
      have hb := hnacc b i ha
      obtain ⟨r, h1, h2, h3⟩ := h.reach b i hb
      have hkp := (hR.new b i).1
      refine ⟨⟨r, hline r h1, ?_⟩, fun v hv hup => ?_, fun hm => ⟨fun v hv hva => ?_, ?_⟩⟩
      · rw [hkp]
        rcases h3 with ⟨h3, h4⟩ | ⟨h3, h4, -⟩
        · exact .inl ⟨h3, by rw [h4]; rfl⟩
        · exact .inr ⟨h3, .inl (by rw [h4]; rfl)⟩
      · by_cases hvl : v < s.next
        · rw [hupn hvl] at hup
          have hvn : g.New s b v := ⟨hv, hvl, (hs.sound.home _ _ h.lt hup).trans (hhas b i hb).2⟩
          rw [(hcalm b i).acc v hvn]
          by_cases hpn : g.start.next ≤ p.buf
          · exact hs.above b i _ v ⟨hpn, hhas b i hb⟩ (h2 hpn) hup hv
          · exact absurd (hs.sound.old _ _ h.lt hup) (by omega)
        · have := hsn.old _ _ (by rw [hR.next]; omega) hup
          obtain rfl : v = s.next := by omega
          exact ha
      · by_cases hvl : v < s.next
        · rw [hupn hvl]
          rcases h3 with ⟨h3, -⟩ | ⟨-, -, h5⟩
          · exact (Goal.apart ⟨r, h3⟩ hm).elim
          · have hvn := hback hv hvl
            exact h5 v hvn ((hcalm b i).acc v hvn ▸ hva)
        · obtain rfl := hlt hv.2 (by omega)
          exact hself
      · rw [hkp]; cases kind <;> exact nofun
  have hmv : Moves g (fun b i => kind = .mut ∧ In P n b i) s s' := by
    refine ⟨hgood, by rw [hR.next]; omega, fun t ht => hR.home_old ht, fun t ht => hR.up_old ht, fun _ _ _ => by rw [hR.mem], hs.next, fun b i u hu => (hcalm b i).acc u hu, fun b i u hu hus ha => ?_⟩
    obtain rfl := hlt hus hu
    have hb := hnacc b i ha
    obtain ⟨r, -, -, ⟨h3, -⟩ | ⟨-, h4, -⟩⟩ := h.reach b i hb
    · exact .inr ⟨r, h3⟩
    · exact .inl ⟨h4, hb⟩
  refine ⟨s', e, hmv, ⟨by show s.next < s'.next; rw [hR.next]; omega, hR.place_new.trans h.at_, fun b i hb => ?_⟩, hs.next, by rw [hR.next]; omega, fun b i _ ha => ?_⟩
  · obtain ⟨r, h1, h2, h3⟩ := h.reach b i hb
    refine ⟨r, hline r h1, fun _ => hacc b i hb, h3.imp_right fun ⟨h3, h4, h5⟩ => ⟨h3, h4, fun v hv hva => ?_⟩⟩
    by_cases hvl : v < s.next
    · show s'.up s.next v = true
      rw [hupn hvl]
      have hvn := hback hv hvl
      exact h5 v hvn ((hcalm b i).acc v hvn ▸ hva)
    · obtain rfl := hlt hv.2 (by omega)
      exact hself
  · have hb := hnacc b i ha
    obtain ⟨r, -, -, ⟨h3, -⟩ | ⟨-, h4, -⟩⟩ := h.reach b i hb
    · exact .inr ⟨r, h3⟩
    · exact .inl (hW h4 b i hb)

theorem keeps_shared {prot : Bool} {k : Ptr → Act} (K : Know g W s) (h : Ref g s .shared p P n)
    (hn : ∀ s' q, Know g W s' → Rely g W s s' → Ref g s' .shared q P n → s.next ≤ q.buf → Own g W s' q.buf → Keeps g W (k q) s') : Keeps g W (.retag prot .shared p n k) s := by
  refine .mk rfl fun s1 hs => ?_
  have K1 := K.moves hs
  have h1 := h.src hs
  obtain ⟨s2, e, hm, hr, ho⟩ := h1.retag (prot := prot) K1 nofun
  refine ⟨_, s2, by simp only [Act.step, e], hm.mono nofun, nofun, fun b i hb => .inr (h1.shared (by rw [← h1.at_]; exact hb)), hn s2 _ (K1.moves hm) (hs.trans (hm.mono nofun)) hr hs.next ho⟩

theorem keeps_mut {prot : Bool} {k : Ptr → Act} (K : Know g W s) (h : Ref g s .mut p P n) (hW : ∀ b i, In P n b i → W b i)
    (hn : ∀ s' q, Know g W s' → Moves g (fun b i => ¬ W b i ∨ In P n b i) s s' → Ref g s' .mut q P n → s.next ≤ q.buf → Own g W s' q.buf → Keeps g W (k q) s') : Keeps g W (.retag prot .mut p n k) s := by
  refine .mk rfl fun s1 hs => ?_
  have K1 := K.moves hs
  have h1 := h.rely hW hs
  obtain ⟨s2, e, hm, hr, ho⟩ := h1.retag (prot := prot) K1 fun _ => hW
  refine ⟨_, s2, by simp only [Act.step, e], hm.mono fun b i h => hW b i h.2, nofun, fun b i hb => .inl (hW b i (by rw [← h1.at_]; exact hb)),
    hn s2 _ (K1.moves hm) ((hs.mono fun _ _ h => .inl h).trans (hm.mono fun b i h => .inr h.2)) hr hs.next ho⟩

theorem keeps_chk {k : Act} (K : Know g W s) (hp : p.buf < s.next) (hle : p.off ≤ g.start.mem.size (s.home p.buf)) (hn : ∀ s', Know g W s' → Rely g W s s' → Keeps g W k s') : Keeps g W (.chk p k) s := by
  refine .mk rfl fun s1 hs => ⟨k, s1, ?_, .refl hs.good, nofun, nofun, hn s1 (K.moves hs) hs⟩
  simp only [Act.step]
  rw [if_pos]
  rw [hs.home _ hp, hs.good.size]; exact hle

theorem keeps_ret {ts : List Nat} {k : Act} (K : Know g W s) (h : ∀ t ∈ ts, Own g W s t) (hn : ∀ s', Know g W s' → Rely g W s s' → Keeps g W k s') : Keeps g W (.ret ts k) s := by
  refine .mk rfl fun s1 hs => ?_
  have K1 := K.moves hs
  have h1 : ∀ t ∈ ts, Own g W s1 t := fun t ht => (h t ht).moves hs
  obtain ⟨s2, e, hm⟩ := hs.good.retOf K.ok fun t ht => ⟨(h1 t ht).lo, (h1 t ht).hi⟩
  have hu : ∀ t ∈ ts, ∀ b i, s1.Used t b i → W b i ∨ g.Shared b i := fun t ht b i hu => (h1 t ht).acc b i ⟨(h1 t ht).hi, hu.1.symm⟩ hu.2.2
  refine ⟨k, s2, by simp only [Act.step, e], hm W, ?_, ?_, hn s2 (K1.moves (hm W)) (hs.trans (hm _))⟩
  · rintro b i ⟨t, ht, h2, h3⟩
    rcases hu t ht b i h2 with h | ⟨r, h⟩
    · exact h
    · obtain ⟨r', -, ⟨-, h4⟩ | ⟨h4, -⟩⟩ := hs.good.new b i t ⟨(h1 t ht).lo, (h1 t ht).hi, h2.1.symm⟩ h2.2.2
      · rw [h3] at h4; cases h4
      · rw [h] at h4; cases h4
  · rintro b i ⟨t, ht, h2⟩
    exact hu t ht b i h2

/-! ### Functions of slices -/

theorem keeps_as_ptr {k : Ptr → Act} (K : Know g W s) (h : Ref g s .shared p P n) (hn : ∀ s' q, Know g W s' → Rely g W s s' → Ref g s' .shared q P n → s.next ≤ q.buf → Keeps g W (k q) s') :
    Keeps g W (Act.as_ptr p n k) s :=
  keeps_shared K h fun _ q K1 m1 h1 l1 o1 => keeps_ret K1 (by simpa using o1) fun s2 K2 m2 => hn s2 q K2 (m1.trans m2) (h1.src m2) l1

theorem keeps_as_mut_ptr {k : Ptr → Act} (K : Know g W s) (h : Ref g s .mut p P n) (hW : ∀ b i, In P n b i → W b i)
    (hn : ∀ s' q, Know g W s' → Moves g (fun b i => ¬ W b i ∨ In P n b i) s s' → Ref g s' .mut q P n → s.next ≤ q.buf → Keeps g W (k q) s') : Keeps g W (Act.as_mut_ptr p n k) s :=
  keeps_mut K h hW fun _ _ K1 m1 h1 _ _ => keeps_mut K1 h1 hW fun _ q K2 m2 h2 l2 o2 => keeps_ret K2 (by simpa using o2) fun s3 K3 m3 =>
    hn s3 q K3 ((m1.trans m2).trans (m3.mono fun _ _ h => .inl h)) (h2.rely hW m3) (Nat.le_trans m1.next l2)

theorem keeps_split_at {k : Ptr → Ptr → Act} {mid : Nat} (hmid : mid ≤ n) (hsz : P.off + n ≤ g.start.mem.size P.buf) (K : Know g W s) (h : Ref g s .shared p P n)
    (hn : ∀ s' l r, Know g W s' → Rely g W s s' → Ref g s' .shared l P mid → Ref g s' .shared r (P.add mid) (n - mid) → Keeps g W (k l r) s') : Keeps g W (Act.split_at p n mid k) s :=
  keeps_shared K h fun _ _ K1 m1 h1 _ o1 => keeps_as_ptr K1 h1 fun s2 q K2 m2 h2 _ =>
    keeps_chk K2 h2.lt (by rw [show (q.add mid).off = q.off + mid from rfl, show (q.add mid).buf = q.buf from rfl, h2.home, h2.off]; omega) fun s3 K3 m3 =>
      keeps_shared K3 ((h2.src m3).take hmid) fun s4 l K4 m4 h4 _ _ => keeps_shared K4 (((h2.src m3).src m4).drop hmid) fun s5 r K5 m5 h5 _ _ =>
        keeps_ret K5 (by simpa using (((o1.moves m2).moves m3).moves m4).moves m5) fun s6 K6 m6 =>
          hn s6 l r K6 (((((m1.trans m2).trans m3).trans m4).trans m5).trans m6) ((h4.src m5).src m6) (h5.src m6)

theorem keeps_split_at_mut {k : Ptr → Ptr → Act} {mid : Nat} (hmid : mid ≤ n) (hsz : P.off + n ≤ g.start.mem.size P.buf) (K : Know g W s) (h : Ref g s .mut p P n) (hW : ∀ b i, In P n b i → W b i)
    (hn : ∀ s' l r, Know g W s' → Moves g (fun b i => ¬ W b i ∨ In P n b i) s s' → Ref g s' .mut l P mid → Ref g s' .mut r (P.add mid) (n - mid) → Keeps g W (k l r) s') :
    Keeps g W (Act.split_at_mut p n mid k) s := by
  have hWl : ∀ b i, In P mid b i → W b i := fun b i h => hW b i (in_mono hmid h)
  have hWr : ∀ b i, In (P.add mid) (n - mid) b i → W b i := fun b i h => hW b i (in_add hmid h)
  exact keeps_mut K h hW fun _ _ K1 m1 h1 _ _ => keeps_mut K1 h1 hW fun _ _ K2 m2 h2 _ o2 => keeps_as_mut_ptr K2 h2 hW fun s3 q K3 m3 h3 _ =>
    keeps_chk K3 h3.lt (by rw [show (q.add mid).off = q.off + mid from rfl, show (q.add mid).buf = q.buf from rfl, h3.home, h3.off]; omega) fun s4 K4 m4 =>
      keeps_mut K4 ((h3.rely hW m4).take hmid) hWl fun s5 l K5 m5 h5 _ _ => by
        have hd : ∀ b i, In P mid b i → ¬ In (P.add mid) (n - mid) b i := by
          rintro b i ⟨a1, a2, a3⟩ ⟨b1, b2, b3⟩
          simp only [Ptr.add] at b2; omega
        have hr : Ref g s5 .mut (q.add mid) (P.add mid) (n - mid) := ((h3.rely hW m4).drop hmid).moves m5 fun _ b i hb hx => hx.elim (fun h' => h' (hWr b i hb)) fun h' => hd b i h' hb
        exact keeps_mut K5 hr hWr fun s6 r K6 m6 h6 _ _ =>
          keeps_ret K6 (by simpa using (((o2.moves m3).moves m4).moves m5).moves m6) fun s7 K7 m7 =>
            hn s7 l r K7 ((((((m1.trans m2).trans m3).trans (m4.mono fun b i h => .inl h)).trans (m5.mono fun b i h => h.imp_right (in_mono hmid))).trans
                (m6.mono fun b i h => h.imp_right (in_add hmid))).trans (m7.mono fun b i h => .inl h))
              ((h5.moves m6 fun _ b i hb hx => hx.elim (fun h' => h' (hWl b i hb)) (hd b i hb)).rely hWl m7) (h6.rely hWr m7)

end Simd.Tree
