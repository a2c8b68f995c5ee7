import Verif.Model.Scripts
import Verif.Props.Concurrent
import Verif.Lemmas.Oblivious
import Verif.Props.Chunks
/-
Threads of a client that make any number of calls, each depending on the results of the ones before.
-/
namespace Simd

open Dispatch

/-- The thread, run alone from memory `m`, keeps to what safe Rust allows if it holds `&` to the bytes `R` and `&mut` to the bytes `W`: it reads initialised bytes of these, writes bytes of
`W`, and every call borrows with `&` from both and with `&mut` from `W` and has the arguments that safe Rust guarantees. -/
def Script.Legal (M : Machine) (R W : Nat → Nat → Prop) {α : Type} : Script α → Mem → Prop
  | done _, _ => True
  | read p n k, m => (∀ b i, Spec.In p n b i → R b i ∨ W b i) ∧ ∃ xs, xs.length = n ∧ Spec.Reads m p xs ∧ (k xs).Legal M R W m
  | write p bs k, m => (∀ b i, Spec.In p bs.length b i → W b i) ∧ Spec.Writable m p bs.length ∧ ∀ m', Spec.Wrote m m' p bs → k.Legal M R W m'
  | call c k, m => c.RunsOn M ∧ c.Borrows M.P m ∧ (∀ b i, Spec.In c.shared.1 c.shared.2 b i → R b i ∨ W b i) ∧
      (∀ b i, Spec.In c.exclusive.1 c.exclusive.2 b i → W b i) ∧
      (∀ a m', (c.prog M.P).run m = .ok a m' → (k (some a)).Legal M R W m') ∧ (∀ m', (c.prog M.P).run m = .err m' → (k none).Legal M R W m')

theorem trace_attempt (x : Prog α) (m : Mem) : x.attempt.trace m = x.trace m := by
  induction x generalizing m with
  | pure a => rfl
  | err => rfl
  | panic => rfl
  | ub => rfl
  | load p n k ih =>
    simp only [Prog.attempt, Prog.trace]
    cases m.read p n with
    | none => rfl
    | some bs => simp [ih]
  | store p bs k ih =>
    simp only [Prog.attempt, Prog.trace]
    split <;> simp [ih]
  | chk p k ih =>
    simp only [Prog.attempt, Prog.trace]
    split <;> simp [ih]
  | alloc n k ih => simp only [Prog.attempt, Prog.trace, ih]

/-- What is needed of a thread for `isolated`. -/
structure Tame (R W : Nat → Nat → Prop) {α : Type} (x : Prog α) (m : Mem) : Prop where
  safe : x.run m ≠ .ub
  inside : Inside (fun b i => R b i ∨ W b i) W (x.trace m)

theorem Tame.bind {R W : Nat → Nat → Prop} {x : Prog α} {f : α → Prog β} {m : Mem} (h : Tame R W x m)
    (hf : ∀ a m', x.run m = .ok a m' → Tame R W (f a) m') : Tame R W (x >>= f) m := by
  refine ⟨?_, ?_⟩
  · rw [run_bind]
    have := h.safe
    cases hx : x.run m with
    | ok a m' => exact (hf a m' hx).safe
    | err m' => simp
    | panic => simp
    | ub => exact absurd hx this
  · show Inside _ _ ((Prog.bind x f).trace m)
    rw [trace_bind]
    intro a ha
    rcases List.mem_append.1 ha with ha | ha
    · exact h.inside a ha
    · cases hx : x.run m with
      | ok b m' => rw [hx] at ha; exact (hf b m' hx).inside a ha
      | err m' => rw [hx] at ha; cases ha
      | panic => rw [hx] at ha; cases ha
      | ub => rw [hx] at ha; cases ha

theorem Call.noalloc (P : Plat) {α : Type} (c : Call α) : NoAlloc (c.prog P) := by
  cases c with
  | base64Encode i config => exact Base64.uses_encode trivial trivial P i config
  | base64Decode i config => exact Base64.uses_decode trivial trivial i config
  | base64Inplace i config => exact Base64.uses_decode_inplace trivial trivial i config
  | base64Check i config => exact Base64.uses_check trivial i config
  | forgiving fi di => exact Base64.uses_forgiving trivial trivial trivial fi di
  | forgivingInplace fi di => exact Base64.uses_forgiving_inplace trivial trivial fi di
  | base32Encode w i config => exact Base32.uses_encode trivial trivial P w i config
  | base32Decode w i config => exact Base32.uses_decode trivial trivial w i config
  | base32Inplace w i config => exact Base32.uses_decode_inplace trivial trivial w i config
  | base32Check i config => exact Base32.uses_check trivial i config
  | hexEncode i case => exact Hex.uses_encode trivial trivial P i case
  | hexDecode i => exact Hex.uses_decode trivial trivial i
  | hexInplace i => exact Hex.uses_decode_inplace trivial trivial i
  | hexCheck i => exact Hex.uses_check_auto trivial i _
  | uuidParse si hi => exact Uuid.uses_parse trivial trivial si hi
  | uuidParseSimple i => exact Uuid.uses_parse_simple trivial trivial i
  | uuidParseHyphenated i => exact Uuid.uses_parse_hyphenated trivial trivial i
  | uuidFormatSimple i case => exact Uuid.uses_format_simple trivial trivial i case
  | uuidFormatHyphenated i case => exact Uuid.uses_format_hyphenated trivial trivial i case
  | isAscii x64 i => exact Unicode.uses_is_ascii trivial x64 i
  | isUtf32le i => exact Unicode.uses_is_utf32le trivial i
  | swap t i => exact Unicode.uses_swap_endianness trivial trivial t i
  | swapInplace t i => exact Unicode.uses_swap_endianness_inplace trivial trivial t i

theorem Script.noalloc (P : Plat) {α : Type} (s : Script α) : NoAlloc (s.prog P) := by
  induction s with
  | done a => exact Uses.ret_true
  | read p n k ih => exact (Uses.loadBytes trivial n).seq ih
  | write p bs k ih => exact (Uses.storeBytes trivial bs).seq fun _ => ih
  | call c k ih => exact (Uses.attempt (c.noalloc P)).seq ih

theorem Script.tame (M : Machine) {R W : Nat → Nat → Prop} {α : Type} (s : Script α) : ∀ m, s.Legal M R W m → Tame R W (s.prog M.P) m := by
  induction s with
  | done a => exact fun m _ => ⟨by simp [Script.prog, pure, Prog.run], by intro a ha; cases ha⟩
  | read p n k ih =>
    rintro m ⟨hi, xs, rfl, hr, hl⟩
    have hrun : (loadBytes p xs.length).run m = .ok xs m := by simp only [loadBytes, Prog.run, hr.has.read]
    refine Tame.bind ⟨by rw [hrun]; simp, ?_⟩ fun a m' h => ?_
    · simp only [loadBytes, Prog.trace, hr.has.read]
      intro a ha
      rw [List.mem_singleton.1 ha]
      exact hi
    · rw [hrun] at h; cases h; exact ih _ _ hl
  | write p bs k ih =>
    rintro m ⟨hi, hw, hl⟩
    have hrun : (storeBytes p bs).run m = .ok () (m.write p bs) := by
      simp only [storeBytes, Prog.run]; exact if_pos hw
    refine Tame.bind ⟨by rw [hrun]; simp, ?_⟩ fun a m' h => ?_
    · simp only [storeBytes, Prog.trace]
      intro a ha
      have ha : a = .store p bs.length := by split at ha <;> exact List.mem_singleton.1 ha
      rw [ha]
      exact hi
    · rw [hrun] at h; cases h; exact ih _ (hl _ (wrote_write m p bs))
  | call c k ih =>
    rintro m ⟨hr, hb, hs, hx, h1, h2⟩
    have hf := c.fine M m hr hb
    refine Tame.bind ⟨?_, ?_⟩ fun a m' h => ?_
    · rw [run_attempt]
      have := hf.safe
      cases h : (c.prog M.P).run m <;> simp_all
    · rw [trace_attempt]
      intro a ha
      have := hf.inside a ha
      cases a with
      | load p n => exact fun b i h => (this b i h).elim (hs b i) fun h => .inr (hx b i h)
      | store p n => exact fun b i h => hx b i (this b i h)
    · rw [run_attempt] at h
      cases hc : (c.prog M.P).run m with
      | ok b m'' => rw [hc] at h; cases h; exact ih _ _ (h1 _ _ hc)
      | err m'' => rw [hc] at h; cases h; exact ih _ _ (h2 _ hc)
      | panic => rw [hc] at h; cases h
      | ub => rw [hc] at h; cases h

/-- C81: any number of threads on the same machine, each of which makes any number of calls of the slice functions, with reads and writes of its own between them, and decides by the
results what to do next. If each thread, run alone, keeps to the bytes it holds and what one thread holds with `&mut` is held by no other, then under every schedule there is no data race, no
undefined behaviour and no deadlock, and every thread ends with the result and leaves in its bytes what it does when it is the only one; nothing else changes. -/
theorem C81_threads (M : Machine) {k : Nat} {α : Fin k → Type} (s : (t : Fin k) → Script (α t)) (m : Mem) (R W : Fin k → Nat → Nat → Prop)
    (hl : ∀ t, (s t).Legal M (R t) (W t) m) (hd : ∀ t u, t ≠ u → ∀ b i, W t b i → ¬ R u b i ∧ ¬ W u b i) :
    Spec.Isolated (fun t => (s t).prog M.P) m W :=
  isolated (R := fun t b i => R t b i ∨ W t b i) (fun t => (s t).noalloc M.P) (fun t => ((s t).tame M m (hl t)).safe) (fun t => ((s t).tame M m (hl t)).inside)
    fun t u htu b i hw h => by
      have := hd t u htu b i hw
      rcases h with (h | h) | h
      · exact this.1 h
      · exact this.2 h
      · exact this.2 h

/-- A thread that encodes `src` to `dst` and decodes the text it got where it is. -/
def Script.roundTrip (ie id : Option Isa) (config : Base64.Config) (src dst : Slice) : Script (Option Slice) :=
  .call (.base64Encode ie config src dst) fun
    | some s => .call (.base64Inplace id config s) .done
    | none => .done none

/-- What such a thread does alone. -/
theorem Script.roundTrip_alone (M : Machine) {ie id : Option Isa} (hi : M.Runs base64_encode ie) (hi' : M.Runs base64_decode id) {config : Base64.Config} {url pad : Bool}
    (hv : Base64.IsVariant config url pad) (m : Mem) (p q : Ptr) (xs : List Byte) (d : Nat) (hr : Spec.Reads m p xs) (hw : Spec.Writable m q d) (hx : xs.length ≤ M.P.isizeMax)
    (hdm : d ≤ M.P.isizeMax) (hl : (Spec.base64 url pad xs).length ≤ d) (hpq : Spec.NoOverlap p xs.length q d) :
    (∃ m' , ((Script.roundTrip ie id config ⟨p, xs.length⟩ ⟨q, d⟩).prog M.P).run m = .ok (some ⟨q, xs.length⟩) m' ∧
      ∀ i, (h : i < xs.length) → m'.cell q.buf (q.off + i) = some xs[i]) ∧
    (Script.roundTrip ie id config ⟨p, xs.length⟩ ⟨q, d⟩).Legal M (Spec.In p xs.length) (Spec.In q d) m := by
  obtain ⟨m₁, e1, w1⟩ := Base64.C59_encode M.P (Runs.ne_sse2 hi (by decide)) hv m p q xs d hr hw hpq hx hl
  have r1 : Spec.Reads m₁ q (Spec.base64 url pad xs) := ⟨by unfold Spec.Writable at *; rw [w1.2.1]; omega, w1.2.2.1⟩
  obtain ⟨m₂, e2, w2⟩ := (Base64.C59_inplace (Runs.ne_sse2 hi' (by decide)) hv m₁ q _ r1).1 xs rfl
  refine ⟨⟨m₂, ?_, w2.2.2.1⟩, ?_⟩
  · simp only [Script.roundTrip, Script.prog, Call.prog, run_bind, run_attempt, e1, e2]
    rfl
  · refine ⟨⟨hi, _, _, hv⟩, ⟨⟨xs, rfl, hr⟩, hw, hx, hdm, hpq⟩, fun b i h => .inl h, fun b i h => h, fun a m' h => ?_, fun m' h => trivial⟩
    cases e1.symm.trans h
    exact ⟨⟨hi', _, _, hv⟩, ⟨⟨[], rfl, by have := r1.1; simp [Call.shared]; omega, fun i hi => by cases hi⟩, r1.1, Nat.zero_le _, by simp only [Call.exclusive]; omega, _, rfl, r1⟩,
      fun b i h => absurd h.2.2 (by have := h.2.1; simp only [Call.shared] at *; omega), fun b i h => ⟨h.1, h.2.1, by have := h.2.2; simp only [Call.exclusive] at *; omega⟩,
      fun _ _ _ => trivial, fun _ _ => trivial⟩

/-- C81 for such threads: sources may be shared. Once all have ended, each has its data at the beginning of its destination, and the sources are as before. -/
theorem C81_round_trip (M : Machine) {k : Nat} (ie id : Option Isa) (hi : M.Runs base64_encode ie) (hi' : M.Runs base64_decode id) (config : Fin k → Base64.Config)
    (url pad : Fin k → Bool) (hv : ∀ t, Base64.IsVariant (config t) (url t) (pad t)) (m : Mem) (p q : Fin k → Ptr) (xs : Fin k → List Byte) (d : Fin k → Nat)
    (hr : ∀ t, Spec.Reads m (p t) (xs t)) (hw : ∀ t, Spec.Writable m (q t) (d t)) (hx : ∀ t, (xs t).length ≤ M.P.isizeMax) (hdm : ∀ t, d t ≤ M.P.isizeMax)
    (hl : ∀ t, (Spec.base64 (url t) (pad t) (xs t)).length ≤ d t) (hpq : ∀ t u, Spec.NoOverlap (p u) (xs u).length (q t) (d t)) (hqq : ∀ t u, t ≠ u → Spec.NoOverlap (q t) (d t) (q u) (d u)) :
    ∃ N, ∀ n c, Threads.Steps n ⟨fun t => (Script.roundTrip ie id (config t) ⟨p t, (xs t).length⟩ ⟨q t, d t⟩).prog M.P, m⟩ c →
      n ≤ N ∧ ((∃ c', Threads.Step c c') ∨
        ∀ t, c.thread t = .pure (some ⟨q t, (xs t).length⟩) ∧ Spec.Reads c.mem (q t) (xs t) ∧ Spec.Reads c.mem (p t) (xs t)) := by
  have key : ∀ {p q : Ptr} {a b : Nat}, Spec.NoOverlap p a q b → ∀ {x i}, Spec.In p a x i → ¬ Spec.In q b x i := by
    rintro p q a b h x i ⟨rfl, h1, h2⟩ ⟨h3, h4, h5⟩
    exact h (i - p.off) (i - q.off) (by omega) (by omega) ⟨h3, by omega⟩
  have alone := fun t => Script.roundTrip_alone M hi hi' (hv t) m (p t) (q t) (xs t) (d t) (hr t) (hw t) (hx t) (hdm t) (hl t) (hpq t t)
  have hI := C81_threads M (fun t => Script.roundTrip ie id (config t) ⟨p t, (xs t).length⟩ ⟨q t, d t⟩) m (fun t => Spec.In (p t) (xs t).length) (fun t => Spec.In (q t) (d t))
    (fun t => (alone t).2) (fun t u htu b i h => ⟨key (hpq t u).symm h, key (hqq t u htu) h⟩)
  obtain ⟨N, hN⟩ := hI
  refine ⟨N, fun n c hs => ?_⟩
  obtain ⟨hn, -, -, hp, he⟩ := hN n c hs
  refine ⟨hn, hp.imp_right fun hend t => ?_⟩
  obtain ⟨h1, -, h3, h4⟩ := he hend
  have h1 := h1 t
  obtain ⟨⟨m', hrun, hw'⟩, -⟩ := alone t
  simp only [hrun, Spec.EndedLike] at h1
  have hle : (xs t).length ≤ d t := by
    refine Nat.le_trans ?_ (hl t)
    rw [Base64.base64_length]
    unfold Base64.encLen
    repeat' split
    all_goals omega
  refine ⟨h1.1, ⟨?_, fun j hj => ?_⟩, ⟨?_, fun j hj => ?_⟩⟩
  · have := hw t; unfold Spec.Writable at *; rw [h3]; omega
  · rw [h1.2 _ _ ⟨rfl, by omega, by omega⟩]; exact hw' j hj
  · rw [h3]; exact (hr t).1
  · rw [h4 _ _ fun u => key (hpq u t) ⟨rfl, by omega, by omega⟩]; exact (hr t).2 j hj

/-- A thread that takes its text for hexadecimal and, if that fails, for base64. -/
def Script.either (ih ib : Option Isa) (config : Base64.Config) (src dst : Slice) : Script (Option Slice) :=
  .call (.hexDecode ih src dst) fun
    | some s => .done (some s)
    | none => .call (.base64Decode ib config src dst) .done

/-- What such a thread ends with: the bytes at `q` are now those the text stands for, or it stands for none. -/
def Script.EitherEnds (url pad : Bool) (xs : List Byte) (q : Ptr) (x : Option Slice) (m : Mem) : Prop :=
  (∃ ys, Spec.IsHexOf xs ys ∧ x = some ⟨q, ys.length⟩ ∧ Spec.Reads m q ys) ∨
  (¬ ∃ ys, Spec.IsHexOf xs ys) ∧ ((∃ ys, Spec.base64 url pad ys = xs ∧ x = some ⟨q, ys.length⟩ ∧ Spec.Reads m q ys) ∨
    (¬ ∃ ys, Spec.base64 url pad ys = xs) ∧ x = none)

theorem Script.either_alone (M : Machine) {ih ib : Option Isa} (hi : M.Runs hex_decode ih) (hi' : M.Runs base64_decode ib) {config : Base64.Config} {url pad : Bool}
    (hv : Base64.IsVariant config url pad) (m : Mem) (p q : Ptr) (xs : List Byte) (d : Nat) (hr : Spec.Reads m p xs) (hw : Spec.Writable m q d) (hx : xs.length ≤ M.P.isizeMax)
    (hdm : d ≤ M.P.isizeMax) (hl : xs.length ≤ d) (hpq : Spec.NoOverlap p xs.length q d) :
    (∃ x m', ((Script.either ih ib config ⟨p, xs.length⟩ ⟨q, d⟩).prog M.P).run m = .ok x m' ∧ Script.EitherEnds url pad xs q x m' ∧ m'.size = m.size) ∧
    (Script.either ih ib config ⟨p, xs.length⟩ ⟨q, d⟩).Legal M (Spec.In p xs.length) (Spec.In q d) m := by
  have hb := hi'
  have hib := Runs.ne_sse2 hi' (by decide)
  have fits : ∀ {m m' : Mem} {ys}, Spec.Writable m q d → ys.length ≤ d → Spec.Wrote m m' q ys → Spec.Reads m' q ys :=
    fun hw hl w => ⟨by unfold Spec.Writable at hw; rw [w.2.1]; omega, w.2.2.1⟩
  by_cases hh : ∃ ys, Spec.IsHexOf xs ys
  · obtain ⟨ys, hy⟩ := hh
    have hyl : ys.length ≤ d := by have := Hex.isHexOf_length hy; omega
    obtain ⟨m₁, e1, w1⟩ := (Hex.C59_decode ih m p q xs d hr hw hpq).1 ys hy hyl
    refine ⟨⟨some ⟨q, ys.length⟩, m₁, ?_, .inl ⟨ys, hy, rfl, fits hw hyl w1⟩, w1.2.1⟩, ?_⟩
    · simp only [Script.either, Script.prog, Call.prog, run_bind, run_attempt, e1]
      rfl
    · refine ⟨hi, ⟨⟨xs, rfl, hr⟩, hw, hx, hdm, hpq⟩, fun b i h => .inl h, fun b i h => h, fun a m' h => trivial, fun m' h => ?_⟩
      cases e1.symm.trans h
  · obtain ⟨m₁, e1, w1⟩ := (Hex.C59_decode ih m p q xs d hr hw hpq).2.2 hh
    have hr₁ : Spec.Reads m₁ p xs := by
      refine ⟨by rw [w1.2.1]; exact hr.1, fun i hi => ?_⟩
      rw [w1.2.2.2 _ _ fun j hj => hpq i j hi (by omega)]; exact hr.2 i hi
    have hw₁ : Spec.Writable m₁ q d := by unfold Spec.Writable at *; rw [w1.2.1]; exact hw
    refine ⟨?_, ?_⟩
    · by_cases h6 : ∃ ys, Spec.base64 url pad ys = xs
      · obtain ⟨ys, rfl⟩ := h6
        have hyl : ys.length ≤ d := by
          refine Nat.le_trans ?_ hl
          rw [Base64.base64_length]
          unfold Base64.encLen
          repeat' split
          all_goals omega
        obtain ⟨m₂, e2, w2⟩ := (Base64.C59_decode hib hv m₁ p q ys d hr₁ hw₁ hpq).1 hyl
        refine ⟨some ⟨q, ys.length⟩, m₂, ?_, .inr ⟨hh, .inl ⟨ys, rfl, rfl, fits hw₁ hyl w2⟩⟩, w2.2.1.trans w1.2.1⟩
        simp only [Script.either, Script.prog, Call.prog, run_bind, run_attempt, e1, e2]
        rfl
      · obtain ⟨m₂, e2, w2⟩ := Base64.C59_decode_err hib hv m₁ p q xs d hr₁ hw₁ hpq h6
        refine ⟨none, m₂, ?_, .inr ⟨hh, .inr ⟨h6, rfl⟩⟩, w2.2.1.trans w1.2.1⟩
        simp only [Script.either, Script.prog, Call.prog, run_bind, run_attempt, e1, e2]
        rfl
    · refine ⟨hi, ⟨⟨xs, rfl, hr⟩, hw, hx, hdm, hpq⟩, fun b i h => .inl h, fun b i h => h, fun a m' h => trivial, fun m' h => ?_⟩
      cases e1.symm.trans h
      exact ⟨⟨hb, _, _, hv⟩, ⟨⟨xs, rfl, hr₁⟩, hw₁, hx, hdm, hpq⟩, fun b i h => .inl h, fun b i h => h, fun _ _ _ => trivial, fun _ _ => trivial⟩

/-- C81 for such threads: an `Err` of the first call is a value with which the thread goes on. -/
theorem C81_either (M : Machine) {k : Nat} (ih ib : Option Isa) (hi : M.Runs hex_decode ih) (hi' : M.Runs base64_decode ib) (config : Fin k → Base64.Config)
    (url pad : Fin k → Bool) (hv : ∀ t, Base64.IsVariant (config t) (url t) (pad t)) (m : Mem) (p q : Fin k → Ptr) (xs : Fin k → List Byte) (d : Fin k → Nat)
    (hr : ∀ t, Spec.Reads m (p t) (xs t)) (hw : ∀ t, Spec.Writable m (q t) (d t)) (hx : ∀ t, (xs t).length ≤ M.P.isizeMax) (hdm : ∀ t, d t ≤ M.P.isizeMax)
    (hl : ∀ t, (xs t).length ≤ d t) (hpq : ∀ t u, Spec.NoOverlap (p u) (xs u).length (q t) (d t)) (hqq : ∀ t u, t ≠ u → Spec.NoOverlap (q t) (d t) (q u) (d u)) :
    ∃ N, ∀ n c, Threads.Steps n ⟨fun t => (Script.either ih ib (config t) ⟨p t, (xs t).length⟩ ⟨q t, d t⟩).prog M.P, m⟩ c →
      n ≤ N ∧ ((∃ c', Threads.Step c c') ∨
        ∀ t, (∃ x, c.thread t = .pure x ∧ Script.EitherEnds (url t) (pad t) (xs t) (q t) x c.mem) ∧ Spec.Reads c.mem (p t) (xs t)) := by
  have key : ∀ {p q : Ptr} {a b : Nat}, Spec.NoOverlap p a q b → ∀ {x i}, Spec.In p a x i → ¬ Spec.In q b x i := by
    rintro p q a b h x i ⟨rfl, h1, h2⟩ ⟨h3, h4, h5⟩
    exact h (i - p.off) (i - q.off) (by omega) (by omega) ⟨h3, by omega⟩
  have alone := fun t => Script.either_alone M hi hi' (hv t) m (p t) (q t) (xs t) (d t) (hr t) (hw t) (hx t) (hdm t) (hl t) (hpq t t)
  have hI := C81_threads M (fun t => Script.either ih ib (config t) ⟨p t, (xs t).length⟩ ⟨q t, d t⟩) m (fun t => Spec.In (p t) (xs t).length) (fun t => Spec.In (q t) (d t))
    (fun t => (alone t).2) (fun t u htu b i h => ⟨key (hpq t u).symm h, key (hqq t u htu) h⟩)
  obtain ⟨N, hN⟩ := hI
  refine ⟨N, fun n c hs => ?_⟩
  obtain ⟨hn, -, -, hp, he⟩ := hN n c hs
  refine ⟨hn, hp.imp_right fun hend t => ?_⟩
  obtain ⟨h1, -, h3, h4⟩ := he hend
  have h1 := h1 t
  obtain ⟨⟨x, m', hrun, hx', hsz⟩, -⟩ := alone t
  simp only [hrun, Spec.EndedLike] at h1
  have move : ∀ {ys : List Byte}, ys.length ≤ d t → Spec.Reads m' (q t) ys → Spec.Reads c.mem (q t) ys := fun hle h =>
    ⟨by have := h.1; rw [h3, ← hsz]; exact this, fun j hj => by rw [h1.2 _ _ ⟨rfl, by omega, by omega⟩]; exact h.2 j hj⟩
  refine ⟨⟨x, h1.1, ?_⟩, ⟨?_, fun j hj => ?_⟩⟩
  · rcases hx' with ⟨ys, h, e, hy⟩ | ⟨hh, ⟨ys, h, e, hy⟩ | h⟩
    · exact .inl ⟨ys, h, e, move (by have := Hex.isHexOf_length h; have := hl t; omega) hy⟩
    · refine .inr ⟨hh, .inl ⟨ys, h, e, move ?_ hy⟩⟩
      refine Nat.le_trans ?_ (hl t)
      rw [← h, Base64.base64_length]
      unfold Base64.encLen
      repeat' split
      all_goals omega
    · exact .inr ⟨hh, .inr h⟩
  · rw [h3]; exact (hr t).1
  · rw [h4 _ _ fun u => key (hpq u t) ⟨rfl, by omega, by omega⟩]; exact (hr t).2 j hj

/-! ### Examples -/

/-- A thread that writes two digits to its buffer, asks whether they are digits, and then looks either at the source or at what it wrote. -/
def askDigits : Script (List Byte) :=
  .write ⟨1, 3⟩ [0x41#8, 0x67#8] <| .call (.hexCheck (some .avx2) ⟨⟨1, 3⟩, 2⟩) fun
    | some _ => .read ⟨0, 0⟩ 1 .done
    | none => .read ⟨1, 4⟩ 1 .done

theorem askDigits_legal : askDigits.Legal sender (Spec.In ⟨0, 0⟩ 6) (Spec.In ⟨1, 0⟩ 8) twoMem := by
  refine ⟨fun b i h => ⟨h.1, Nat.zero_le _, by have := h.2.2; simp at *; omega⟩, show 3 + 2 ≤ 16 by decide, fun m' hw => ?_⟩
  have hr : Spec.Reads m' ⟨1, 3⟩ [0x41#8, 0x67#8] := ⟨by rw [hw.2.1]; exact show 3 + 2 ≤ 16 by decide, hw.2.2.1⟩
  have hP : 16 ≤ sender.P.isizeMax := by decide
  have hc : (Hex.check (some .avx2) ⟨⟨1, 3⟩, 2⟩).run m' = .ok () m' ∨ (Hex.check (some .avx2) ⟨⟨1, 3⟩, 2⟩).run m' = .err m' := by
    have := Hex.C58_check_raw (some .avx2) m' ⟨1, 3⟩ _ hr
    split at this
    · exact .inl this
    · exact .inr this
  have h0 : Spec.Reads twoMem ⟨0, 0⟩ [0x7a#8] := by
    refine ⟨show 0 + 1 ≤ 16 by decide, fun i hi => ?_⟩
    have : i = 0 := by simpa using hi
    subst this; rfl
  have h0 := hw.reads (d := 2) h0 (noOverlap_of_ne (show (0 : Nat) ≠ 1 by decide) _ _) (Nat.le_refl _)
  refine ⟨(runs_first _ _ _ (by decide) (by decide) : Runs sender.build sender.cpu hex_check _), ⟨⟨_, rfl, hr⟩, ?_, Nat.le_trans (by decide) hP, Nat.zero_le _, trivial⟩, ?_, ?_, ?_, ?_⟩
  · show 3 + 0 ≤ m'.size 1
    rw [hw.2.1]; exact show 3 ≤ 16 by decide
  · exact fun b i h => .inr ⟨h.1, Nat.zero_le _, by have := h.2.2; simp [Call.shared] at *; omega⟩
  · exact fun b i h => absurd h.2.2 (by have := h.2.1; simp only [Call.exclusive] at *; omega)
  · intro a m'' h
    have h : (Hex.check (some .avx2) ⟨⟨1, 3⟩, 2⟩).run m' = .ok a m'' := h
    rcases hc with hc | hc <;> cases hc.symm.trans h
    exact ⟨fun b i h => .inl ⟨h.1, Nat.zero_le _, by have := h.2.2; simp at *; omega⟩, _, rfl, h0, trivial⟩
  · intro m'' h
    have h : (Hex.check (some .avx2) ⟨⟨1, 3⟩, 2⟩).run m' = .err m'' := h
    rcases hc with hc | hc <;> cases hc.symm.trans h
    exact ⟨fun b i h => .inr ⟨h.1, Nat.zero_le _, by have := h.2.2; simp at *; omega⟩, [0x67#8], rfl, ⟨hr.1, fun i hi => by
      have : i = 0 := by simpa using hi
      subst this; exact hr.2 1 (by decide)⟩, trivial⟩

/-- Beside it, a thread that encodes six bytes of the source to the second half of the same allocation and decodes them again. -/
def pairTy : Fin 2 → Type
  | 0 => List Byte
  | 1 => Option Slice
def pairScripts : (t : Fin 2) → Script (pairTy t)
  | 0 => askDigits
  | 1 => Script.roundTrip (some .avx2) (some .avx2) Base64.STANDARD ⟨⟨0, 0⟩, 6⟩ ⟨⟨1, 8⟩, 8⟩

example : Spec.Isolated (fun t => (pairScripts t).prog sender.P) twoMem (fun t => if t = 0 then Spec.In ⟨1, 0⟩ 8 else Spec.In ⟨1, 8⟩ 8) := by
  have hP : 16 ≤ sender.P.isizeMax := by decide
  refine C81_threads sender pairScripts twoMem (fun _ => Spec.In ⟨0, 0⟩ 6) _ (fun t => ?_) (fun t u htu b i h => ?_)
  · match t with
    | 0 => exact askDigits_legal
    | 1 =>
      obtain ⟨xs, hl, hr⟩ := reads_two 0 6 (by decide)
      have := (Script.roundTrip_alone sender (ie := some .avx2) (id := some .avx2) (runs_first _ _ _ (by decide) (by decide)) (runs_first _ _ _ (by decide) (by decide))
        (config := Base64.STANDARD) (url := false) (pad := true) (.inl ⟨rfl, rfl, rfl⟩) twoMem ⟨0, 0⟩ ⟨1, 8⟩ xs 8 hr (show 8 + 8 ≤ 16 by decide) (by rw [hl]; exact Nat.le_trans (by decide) hP)
        (Nat.le_trans (by decide) hP) (by rw [Base64.base64_length, hl]; decide) (noOverlap_of_ne (show (0 : Nat) ≠ 1 by decide) _ _)).2
      rw [hl] at this
      exact this
  · match t, u with
    | 0, 0 | 1, 1 => exact absurd rfl htu
    | 0, 1 | 1, 0 => simp [Spec.In] at *; omega

/-- Two threads that read the same four bytes, `QUJD`, and have eight bytes each in another allocation: the hypotheses of `C81_round_trip` and `C81_either` hold, and the text is base64 and
not hexadecimal. -/
example : ∃ xs : List Byte, Spec.base64 false true [0x41#8, 0x42#8, 0x43#8] = xs ∧ (¬ ∃ ys, Spec.IsHexOf xs ys) ∧
    (∀ _ : Fin 2, Spec.Reads twoMem ⟨0, 2⟩ xs) ∧ (∀ t : Fin 2, Spec.Writable twoMem ⟨1, 8 * t⟩ 8) ∧ (Spec.base64 false true xs).length ≤ 8 ∧ xs.length ≤ 8 ∧
    (∀ t _ : Fin 2, Spec.NoOverlap ⟨0, 2⟩ xs.length ⟨1, 8 * t⟩ 8) ∧ (∀ t u : Fin 2, t ≠ u → Spec.NoOverlap ⟨1, 8 * t⟩ 8 ⟨1, 8 * u⟩ 8) := by
  refine ⟨[0x51#8, 0x55#8, 0x4a#8, 0x44#8], by decide +kernel, ?_, ?_, ?_, by decide +kernel, by decide, ?_, ?_⟩
  · rintro ⟨ys, h⟩
    have hl := Hex.isHexOf_length h
    match ys, hl with
    | [a, b], _ =>
      have h0 : (Spec.hexEncode false [a])[0]? = some 0x71#8 := (congrArg (·[0]?) h).symm
      have : ∀ a : Byte, (Spec.hexEncode false [a])[0]? ≠ some 0x71#8 := by decide +kernel
      exact this a h0
  · refine fun _ => ⟨by decide, fun i h => ?_⟩
    have : i = 0 ∨ i = 1 ∨ i = 2 ∨ i = 3 := by simp at h; omega
    rcases this with rfl | rfl | rfl | rfl <;> rfl
  · intro t
    show 8 * t.val + 8 ≤ 16
    omega
  · exact fun t _ => noOverlap_of_ne (show (0 : Nat) ≠ 1 by decide) _ _
  · intro t u h i j hi hj e
    have : t.val ≠ u.val := fun e => h (Fin.ext e)
    have := e.2
    dsimp only at this
    omega

end Simd
