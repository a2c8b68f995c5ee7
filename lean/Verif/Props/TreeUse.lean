import Verif.Lemmas.TreeUseExt
import Verif.Props.Lend
/-
C95: safe Rust programs that keep references, with the rules of Tree Borrows.
-/
namespace Simd.Tree.Use
open Spec
open Lend (Ref returned)

variable {M : Machine} {w w' : World}

theorem reaches_inv (h : Reaches M w) : Inv M.P w := by
  induction h with
  | start => exact inv_start _
  | step _ hl he ih => exact (exec_fine ih hl he).1

theorem after_refs {α : Type} {r : Result α} {f : α → Nat → Option Owned} (h : w.after r f = .ok w') : w'.refs = w.refs := by
  cases r with
  | ok a s => injection h with h; rw [← h]
  | err s => injection h with h; rw [← h]
  | panic | ub => cases h

theorem kept_refs {α : Type} {c : Call α} {keep : Option Nat} {r : Result α} (h : w.kept c keep r = .ok w') : w'.refs = w.refs ∨ ∃ k ρ, keep = some k ∧ w'.refs = w.setRef k (some ρ) := by
  cases r with
  | ok a s =>
    cases keep with
    | none => exact .inl (after_refs (r := .ok a s) (f := fun _ => w.vars) h)
    | some k =>
      replace h : (match returned c a with | some (p, n) => World.make { w with st := s } k true true (w.ownerOf c.exclusive.1.buf) p n | none => .ok { w with st := s }) = End.ok w' := h
      cases e : returned c a with
      | none => rw [e] at h; injection h with h; exact .inl (by rw [← h])
      | some pn =>
        rw [e] at h
        obtain ⟨s', rfl, -⟩ := make_eq h
        exact .inr ⟨k, _, rfl, rfl⟩
  | err s => exact .inl (after_refs (α := α) (r := .err s) (f := fun _ => w.vars) (by cases keep <;> exact h))
  | panic | ub => cases keep <;> cases h

/-- A reference stays live until its last use. -/
theorem refs_stay {op : Use.Step} (h : op.Legal M w) (he : Exec M.P w op (.ok w')) {r : Nat} {ρ : Lend.Ref} (hr : w.refs r = some ρ) (hf : op ≠ .one (.forget r)) : w'.refs r = some ρ := by
  have hset : ∀ k x, w.Unused k → w.setRef k x r = some ρ := fun k x hk => by
    have : r ≠ k := fun e => by rw [e, hk.2] at hr; cases hr
    exact (if_neg this).trans hr
  generalize e : End.ok w' = e1 at he
  cases he with
  | par threads i config src dst keep o ho =>
    rcases kept_refs e.symm with e | ⟨k, x, hk, e⟩ <;> rw [e]
    · exact hr
    · exact hset k _ (World.CanCall.keep h k hk)
  | ext c => rw [after_refs e.symm]; exact hr
  | one op =>
    have he := e.symm
    replace h : Legal M w op := h
    cases op with
    | new | heap | read | write => rw [after_refs he]; exact hr
    | move | truncate | intoBytes => injection he with he; rw [← he]; exact hr
    | drop x =>
      obtain ⟨⟨o, ho⟩, -⟩ := h
      replace he : (match w.vars x with | some o => w.after (dropOwned o w.st) fun _ => w.set x none | none => .ub) = End.ok w' := he
      rw [ho] at he
      rw [after_refs he]; exact hr
    | borrow k excl init p n =>
      obtain ⟨s', rfl, -⟩ := make_eq he
      exact hset k _ h.1
    | forget k =>
      injection he with he
      subst he
      exact (if_neg fun e => hf (by rw [e])).trans hr
    | call c keep =>
      rcases kept_refs he with e | ⟨k, x, hk, e⟩ <;> rw [e]
      · exact hr
      · exact hset k _ (World.CanCall.keep h k hk)

/-- The steps that may panic: a byte swap to a shorter slice; `par_encode` to a slice that is too short, or with too many threads; and calls that allocate, if the result could be too long. -/
def MayPanic (M : Machine) (w : World) : Step → Prop
  | .one (.call c _) => ShortSwap c
  | .par threads i config src dst _ => M.P.usizeMax < threads * 4096 ∨ ∃ xs, xs.length = src.len ∧ w.Bytes src.ptr xs ∧ CallMeans xs dst.len none (.base64Encode i config src dst)
  | .one (.heap _ c) => M.P.isizeMax < c.held + 2 * c.shared.len + 6 + c.extra
  | _ => False

theorem one_no_panic (hI : Inv M.P w) {op : Op} (h : Legal M w op) (hn : ¬ MayPanic M w (.one op)) : exec M.P w op ≠ .panic := fun he => by
  cases op with
  | new x text bs cap =>
    obtain ⟨s', h1, -⟩ := new_value (P := M.P) hI.sound x text h.2.1
    rw [h1] at he; cases he
  | move | truncate | intoBytes | forget => cases he
  | drop x => obtain ⟨⟨o, h1⟩, h2⟩ := h; exact (drop_fine (T := none) hI h1 h2).2 he
  | borrow => exact make_panic he
  | read => exact load_panic _ _ _ (after_panic he)
  | write => exact store_panic _ _ _ (after_panic he)
  | call c keep => exact hn (call_panics hI h he)
  | heap x c => exact heap_goes_on hI h (Nat.le_of_not_lt hn) he

theorem no_panic (hI : Inv M.P w) {op : Use.Step} (h : op.Legal M w) (hn : ¬ MayPanic M w op) : ¬ Exec M.P w op .panic := fun he => by
  generalize e : End.panic = e1 at he
  cases he with
  | one op => exact one_no_panic hI h hn e.symm
  | par threads i config src dst keep r hr =>
    obtain ⟨xs, hl, hx⟩ := Inits.reads hI (World.CanCall.shared h).1
    exact hn (((par_ends hI h hr hl hx).2 e.symm).imp id fun h => ⟨xs, hl, hx, h⟩)
  | ext c =>
    obtain ⟨xs, hl, hx⟩ := Inits.reads hI h.2.1
    obtain ⟨res, s', -, -, e', -⟩ := ext_world hI h hl hx
    rw [e'] at e; cases e

theorem some_exec (hI : Inv M.P w) {op : Use.Step} (h : op.Legal M w) : ∃ e, Exec M.P w op e := by
  cases op with
  | one op => exact ⟨_, .one op⟩
  | par => obtain ⟨-, r, hr⟩ := par_fine hI h; exact ⟨_, .par _ _ _ _ _ _ r hr⟩
  | ext c => exact ⟨_, .ext c⟩

end Simd.Tree.Use

namespace Simd.Tree
open Spec Use
open Lend (Ref)

/-- C95: no safe program that keeps references has undefined behaviour by the rules of Tree Borrows either. From the start, after any number of steps that the compiler accepts in safe Rust, with any references
to variables, to parts of them and to what other references point to, and with slices that functions of the crates have returned, kept and used as long as the borrow checker allows, the next such step
goes on or panics, whatever the threads of `par_encode` do when. -/
theorem C95_sound (M : Machine) {w : World} (h : Reaches M w) {op : Use.Step} (hl : op.Legal M w) : ¬ Exec M.P w op .ub := fun he => exec_fine (reaches_inv h) hl he

/-- C95: the program goes on, unless the step is one that may panic. -/
theorem C95_goes_on (M : Machine) {w : World} (h : Reaches M w) {op : Use.Step} (hl : op.Legal M w) (hn : ¬ MayPanic M w op) :
    (∃ w', Exec M.P w op (.ok w')) ∧ ∀ e, Exec M.P w op e → ∃ w', e = .ok w' := by
  have key : ∀ e, Exec M.P w op e → ∃ w', e = .ok w' := fun e he => by
    cases e with
    | ok w' => exact ⟨w', rfl⟩
    | panic => exact absurd he (no_panic (reaches_inv h) hl hn)
    | ub => exact absurd he (C95_sound M h hl)
  refine ⟨?_, key⟩
  obtain ⟨e, he⟩ := some_exec (reaches_inv h) hl
  obtain ⟨w', rfl⟩ := key e he
  exact ⟨w', he⟩

/-- C95: every variable and every live reference is valid after every number of steps. -/
theorem C95_valid (M : Machine) {w : World} (h : Reaches M w) : (∀ x o, w.vars x = some o → Use.Valid M.P w.st o) ∧ ∀ r ρ, w.refs r = some ρ → ValidRef w ρ := by
  have hI := reaches_inv h
  refine ⟨hI.valid, fun r ρ hr => ?_⟩
  obtain ⟨o, ho, hok⟩ := hI.refs r ρ hr
  refine ⟨⟨o, ho, hok.home, hok.within, hok.text⟩, ⟨hok.tag, fun b i hi => ?_⟩, fun hx => ⟨hok.tag, fun b i hi => ?_⟩, hok.content⟩
  · exact Allowed.read (hI.ref_allowed hr hi)
  · have := hI.ref_allowed hr hi
    rw [hx] at this
    exact this

/-- C95: a shared reference stays live until its last use, and the bytes behind it do not change meanwhile. -/
theorem C95_frozen (M : Machine) {w w' : World} (h : Reaches M w) {op : Use.Step} (hl : op.Legal M w) (he : Exec M.P w op (.ok w')) {r : Nat} {ρ : Lend.Ref} (hr : w.refs r = some ρ) (hx : ρ.excl = false)
    (hf : op ≠ .one (.forget r)) : w'.refs r = some ρ ∧ ∀ xs, xs.length = ρ.len → w.Bytes ⟨r, ρ.off⟩ xs → w'.Bytes ⟨r, ρ.off⟩ xs := by
  have hr' := refs_stay hl he hr hf
  refine ⟨hr', fun xs hn hb => ?_⟩
  have := (exec_fine (reaches_inv h) hl he).2 r ρ hr (.inl hx) hr' xs hn
  unfold World.Bytes at *
  dsimp only at *
  rw [(ref_name hr).1] at hb
  rw [(ref_name hr').1]
  exact this hb

/-- C95: the bytes behind a live `&mut` reference change only by steps that write through it, or through a name that was made later. -/
theorem C95_unique (M : Machine) {w w' : World} (h : Reaches M w) {op : Use.Step} (hl : op.Legal M w) (he : Exec M.P w op (.ok w')) {r : Nat} {ρ : Lend.Ref} (hr : w.refs r = some ρ)
    (hx : ∀ n, op.through = some n → w.name n < ρ.tag) (hf : op ≠ .one (.forget r)) : w'.refs r = some ρ ∧ ∀ xs, xs.length = ρ.len → w.Bytes ⟨r, ρ.off⟩ xs → w'.Bytes ⟨r, ρ.off⟩ xs := by
  have hr' := refs_stay hl he hr hf
  refine ⟨hr', fun xs hn hb => ?_⟩
  have := (exec_fine (reaches_inv h) hl he).2 r ρ hr (.inr fun t ht => by
    obtain ⟨n, h1, rfl⟩ := Option.map_eq_some_iff.1 ht
    exact hx n h1) hr' xs hn
  unfold World.Bytes at *
  dsimp only at *
  rw [(ref_name hr).1] at hb
  rw [(ref_name hr').1]
  exact this hb

/-- C95: what a call leaves is what it means: the bytes in the destination, and the slice that is kept points to just these. -/
theorem C95_call (M : Machine) {w w' : World} (h : Reaches M w) {α : Type} {c : Call α} {keep : Option Nat} (hl : Use.Step.Legal M w (.one (.call c keep))) (he : Exec M.P w (.one (.call c keep)) (.ok w')) {xs : List Byte}
    (hn : xs.length = (input c).2) (hx : w.Bytes (input c).1 xs) : ∃ res, CallMeans xs c.exclusive.2 res c ∧ w.Ended w' c keep res := by
  generalize e : End.ok w' = e1 at he
  cases he
  exact call_value (reaches_inv h) hl e.symm hn hx

/-- C95: the same for `par_encode`, whatever the threads do when. -/
theorem C95_par (M : Machine) {w w' : World} (h : Reaches M w) {threads : Nat} {i : Option Isa} {config : Simd.Base64.Config} {src dst : Slice} {keep : Option Nat}
    (hl : Use.Step.Legal M w (.par threads i config src dst keep)) (he : Exec M.P w (.par threads i config src dst keep) (.ok w')) {xs : List Byte} (hn : xs.length = src.len) (hx : w.Bytes src.ptr xs) :
    ∃ res, CallMeans xs dst.len res (.base64Encode i config src dst) ∧ w.Ended w' (.base64Encode i config src dst) keep res := by
  generalize e : End.ok w' = e1 at he
  cases he with
  | par _ _ _ _ _ _ r hr => exact (par_ends (reaches_inv h) hl hr hn hx).1 w' e.symm

/-- C95: a function of `UuidExt` or a formatter returns what the English says about the bytes it is given, and changes no variable, no reference and no memory that existed. -/
theorem C95_ext (M : Machine) {w w' : World} (h : Reaches M w) {c : ExtCall} (hl : Use.Step.Legal M w (.ext c)) (he : Exec M.P w (.ext c) (.ok w')) {xs : List Byte} (hn : xs.length = c.shared.len)
    (hx : w.Bytes c.shared.ptr xs) :
    (∃ res, ExtMeans xs res c ∧ (w.argsExt c).tree w.st = returns res w'.st) ∧ w'.vars = w.vars ∧ w'.refs = w.refs ∧ Spec.Kept w.st.mem w'.st.mem := by
  obtain ⟨res, s', h1, h2, h3, h4⟩ := ext_world (reaches_inv h) hl hn hx
  generalize e : End.ok w' = e1 at he
  cases he
  rw [h3] at e
  cases e
  exact ⟨⟨res, h1, h2⟩, rfl, rfl, h4.kept⟩

/-- C95: nothing is leaked. -/
theorem C95_no_leak (M : Machine) {w : World} (h : Reaches M w) {b : Nat} (hb : b < w.st.mem.nbuf) (hn : ∀ x o, w.vars x = some o → w.st.home (Spec.ownerOf o).1.buf ≠ b) : Freed w.st b :=
  (reaches_inv h).freed b hb hn

/-! ### A program -/

namespace Use
open Client (InPlace)

theorem one_exec {P : Plat} {w : World} {op : Op} {e : End} (h : Exec P w (.one op) e) : exec P w op = e := by cases h; rfl

theorem new_step {w : World} (h : Reaches sender w) {x : Nat} {bs : List Byte} {cap : Nat} (hx : w.Unused x) (hl : bs.length ≤ cap) (hm : cap ≤ sender.P.isizeMax) :
    ∃ s', Reaches sender ⟨w.set x (some (.vec ⟨w.st.next, bs.length, cap⟩)), s', w.refs⟩ ∧ Exec sender.P w (.one (.new x false bs cap)) (.ok ⟨w.set x (some (.vec ⟨w.st.next, bs.length, cap⟩)), s', w.refs⟩) ∧
      Reads s'.mem (place s' ⟨w.st.next, 0⟩) bs := by
  obtain ⟨s', h1, -, h2, -⟩ := new_value (P := sender.P) (reaches_inv h).sound x false hl
  have he : Exec sender.P w (.one (.new x false bs cap)) _ := .one _
  rw [h1] at he
  exact ⟨s', .step (op := .one (.new x false bs cap)) h ⟨hx, hl, hm, nofun⟩ he, he, h2⟩

/-- `let a = b"Hi!".to_vec(); let r2 = &a[..];` -/
theorem at2 : ∃ w ρ, Reaches sender w ∧ w.vars 0 = some (.vec ⟨0, 3, 4⟩) ∧ (∀ y, 0 < y → w.vars y = none) ∧ w.refs = World.setRef .start 2 (some ρ) ∧ ρ.off = 0 ∧ ρ.len = 3 ∧ ρ.excl = false ∧ ρ.init = true ∧
    ρ.owner = 0 ∧ w.Bytes ⟨2, 0⟩ hi := by
  have hm := sender_max
  obtain ⟨s', h1, -, h2⟩ := new_step (x := 0) (bs := hi) (cap := 4) .start ⟨rfl, rfl⟩ (by decide) (by omega)
  let w1 : World := ⟨World.start.set 0 (some (.vec ⟨0, 3, 4⟩)), s', World.start.refs⟩
  have hl : Step.Legal sender w1 (.one (.borrow 2 false true ⟨0, 0⟩ 3)) :=
    ⟨⟨rfl, rfl⟩, fun _ => .inl ⟨_, rfl, by decide⟩, nofun, fun _ => ⟨.inl ⟨_, rfl, by decide⟩, fun b i hi r ρ hr => by cases hr⟩⟩
  obtain ⟨w2, he⟩ := (C95_goes_on sender h1 hl id).1
  obtain ⟨s2, e2, h3, h4⟩ := make_eq (one_exec he)
  refine ⟨w2, _, .step h1 hl he, by rw [e2]; rfl, fun y hy => by rw [e2]; exact if_neg (by omega), by rw [e2]; rfl, rfl, rfl, rfl, rfl, rfl, ?_⟩
  subst e2
  show Reads s2.mem ⟨s2.home s'.next, 0⟩ hi
  rw [h3, h4]
  dsimp only
  rw [if_pos rfl]
  exact h2

/-- `let u = Uuid::from_bytes([0x5a; 16]); u.format_simple().to_string()` -/
example : ∃ w w', Reaches sender w ∧ Step.Legal sender w (.ext (.formatSimple (some .avx2) .lower ⟨0, 0⟩)) ∧ Exec sender.P w (.ext (.formatSimple (some .avx2) .lower ⟨0, 0⟩)) (.ok w') ∧
    (w.argsExt (.formatSimple (some .avx2) .lower ⟨0, 0⟩)).tree w.st = .ok (uuidSimple false (List.replicate 16 0x5a#8)) w'.st := by
  have hm := sender_max
  obtain ⟨s', h1, -, h2⟩ := new_step (x := 0) (bs := List.replicate 16 0x5a#8) (cap := 16) .start ⟨rfl, rfl⟩ (by decide) (by omega)
  let w1 : World := ⟨World.start.set 0 (some (.vec ⟨0, 16, 16⟩)), s', World.start.refs⟩
  have hl : Step.Legal sender w1 (.ext (.formatSimple (some .avx2) .lower ⟨0, 0⟩)) :=
    ⟨(Dispatch.runs_first _ _ _ (by decide) (by decide) : Dispatch.Runs sender.build sender.cpu Dispatch.uuid_format_simple _), .inl ⟨_, rfl, by decide⟩, fun b i hi r ρ hr => by cases hr⟩
  obtain ⟨w2, he⟩ := (C95_goes_on sender h1 hl id).1
  obtain ⟨⟨res, h3, h4⟩, -⟩ := C95_ext sender h1 hl he (xs := List.replicate 16 0x5a#8) (by decide) h2
  subst h3
  exact ⟨w1, w2, h1, hl, he, h4⟩

/-- `let b = vec![0; 8];` -/
theorem at3 : ∃ w ρ t, Reaches sender w ∧ w.vars 0 = some (.vec ⟨0, 3, 4⟩) ∧ w.vars 1 = some (.vec ⟨t, 8, 8⟩) ∧ (∀ y, 1 < y → w.vars y = none) ∧ w.refs = World.setRef .start 2 (some ρ) ∧ ρ.off = 0 ∧ ρ.len = 3 ∧
    ρ.excl = false ∧ ρ.init = true ∧ ρ.owner = 0 ∧ w.Bytes ⟨2, 0⟩ hi := by
  obtain ⟨w, ρ, h, h0, hn, hr, h1, h2, h3, h4, h5, hb⟩ := at2
  have hm := sender_max
  obtain ⟨s', g1, g2, -⟩ := new_step (x := 1) (bs := List.replicate 8 0#8) (cap := 8) h ⟨hn 1 (by decide), by rw [hr]; rfl⟩ (by decide) (by omega)
  have hf := (C95_frozen sender h (op := .one (.new 1 false (List.replicate 8 0#8) 8)) ⟨⟨hn 1 (by decide), by rw [hr]; rfl⟩, by decide, by omega, nofun⟩ g2 (r := 2) (ρ := ρ) (by rw [hr]; rfl) h3 nofun).2 hi h2.symm
  rw [h1] at hf
  refine ⟨_, ρ, w.st.next, g1, h0, rfl, fun y hy => ?_, hr, h1, h2, h3, h4, h5, hf hb⟩
  exact (if_neg (by omega)).trans (hn y (by omega))

/-- A call with `r2` and a part of `b`, with the returned slice kept as `r3`. -/
theorem can_call {w : World} {ρ : Lend.Ref} {t : Nat} (h : Reaches sender w) (h0 : w.vars 0 = some (.vec ⟨0, 3, 4⟩)) (h1 : w.vars 1 = some (.vec ⟨t, 8, 8⟩)) (hn : ∀ y, 1 < y → w.vars y = none)
    (hr : w.refs = World.setRef .start 2 (some ρ)) (g1 : ρ.off = 0) (g2 : ρ.len = 3) (g3 : ρ.excl = false) (g4 : ρ.init = true) (g5 : ρ.owner = 0) {α : Type} (c : Call α) (hc : c.RunsOn sender)
    (hs : c.shared = (⟨2, 0⟩, 3)) {d : Nat} (hd : d ≤ 8) (hx : c.exclusive = (⟨1, 0⟩, d)) (hp : ¬ InPlace c) : w.CanCall sender c (some 3) := by
  have hI := reaches_inv h
  have r2 : w.refs 2 = some ρ := by rw [hr]; rfl
  have only : ∀ r ρ', w.refs r = some ρ' → ρ' = ρ := fun r ρ' h => by
    rw [hr] at h
    unfold World.setRef at h
    split at h
    · cases h; rfl
    · cases h
  obtain ⟨o, ho, hok⟩ := hI.refs 2 ρ r2
  rw [g5, h0] at ho; cases ho
  have n1 := (hI.var_name h1).1
  have n2 := (ref_name r2).1
  have hne : w.st.home ρ.tag ≠ w.st.home (w.name 1) := fun e => by
    have := hI.apart 0 1 _ _ h0 h1 (by rw [← n1, ← e]; exact hok.home.symm)
    cases this
  refine ⟨hc, ?_, ?_, fun h => absurd h hp, ?_, fun k hk => ?_⟩
  · rw [hs]
    refine ⟨.inr ⟨ρ, r2, by rw [g1], by rw [g1, g2], fun _ => g4⟩, fun b i hi r ρ' hr' hc hx => ?_⟩
    rw [only r ρ' hr', g3] at hx; cases hx
  · rw [hx]
    refine ⟨.inl ⟨_, h1, show 0 + d ≤ 8 by omega, fun _ => id⟩, fun b i hi r ρ' hr' hc => ?_⟩
    rw [only r ρ' hr'] at hc
    exact absurd (hc.1.symm.trans hi.1) hne
  · rw [hs, hx]
    refine noOverlap_of_ne ?_ _ _
    show w.st.home (w.name 2) ≠ w.st.home (w.name 1)
    rw [n2]; exact hne
  · cases hk
    exact ⟨hn 3 (by decide), by rw [hr]; rfl⟩

/-- `let r3 = hex_simd::encode(r2, b[..6].as_out(), AsciiCase::Lower);` -/
def hexOp : Call Slice := .hexEncode (some .avx2) .lower ⟨⟨2, 0⟩, 3⟩ ⟨⟨1, 0⟩, 6⟩

theorem at4 : ∃ w ρ ρ3 t, Reaches sender w ∧ w.vars 0 = some (.vec ⟨0, 3, 4⟩) ∧ w.vars 1 = some (.vec ⟨t, 8, 8⟩) ∧ (∀ y, 1 < y → w.vars y = none) ∧ w.refs = (fun n => if n = 3 then some ρ3 else if n = 2 then some ρ else none) ∧
    ρ.owner = 0 ∧ ρ.excl = false ∧ ρ3.excl = true ∧ ρ3.init = true ∧ ρ3.owner = 1 ∧ ρ3.off = 0 ∧ ρ3.len = 6 ∧ w.Bytes ⟨1, 0⟩ (hexEncode false hi) := by
  obtain ⟨w, ρ, t, h, h0, h1, hn, hr, g1, g2, g3, g4, g5, hb⟩ := at3
  have hl : Step.Legal sender w (.one (.call hexOp (some 3))) := can_call h h0 h1 hn hr g1 g2 g3 g4 g5 hexOp runs_hex_encode rfl (d := 6) (by decide) rfl id
  obtain ⟨w', he⟩ := (C95_goes_on sender h hl id).1
  obtain ⟨res, hm, hv, hE⟩ := C95_call sender h hl he (xs := hi) rfl hb
  have hm : res = some (hexEncode false hi) := by rw [show res = fits 6 (hexEncode false hi) from hm]; decide
  subst hm
  obtain ⟨hE1, -, hE2⟩ := hE
  obtain ⟨ρ3, e1, e2, e3, e4, e5, e6⟩ := hE2 trivial
  refine ⟨w', ρ, ρ3, t, .step h hl he, by rw [hv]; exact h0, by rw [hv]; exact h1, by rw [hv]; exact hn, ?_, g5, g3, e2, e3, ?_, e5, e6.trans (by decide), hE1⟩
  · rw [e1]; unfold World.setRef; rw [hr]; rfl
  · rw [e4]; exact ((reaches_inv h).var_name h1).2.1

/-- The same with `par_encode` on two threads: `r3` is `SGkh`. -/
example : ∃ w w' ρ3, Reaches sender w ∧ Step.Legal sender w (.par 2 (some .avx2) Simd.Base64.STANDARD ⟨⟨2, 0⟩, 3⟩ ⟨⟨1, 0⟩, 4⟩ (some 3)) ∧
    Exec sender.P w (.par 2 (some .avx2) Simd.Base64.STANDARD ⟨⟨2, 0⟩, 3⟩ ⟨⟨1, 0⟩, 4⟩ (some 3)) (.ok w') ∧ w'.refs 3 = some ρ3 ∧ ρ3.len = 4 ∧ w'.Bytes ⟨1, 0⟩ [0x53#8, 0x47#8, 0x6b#8, 0x68#8] := by
  obtain ⟨w, ρ, t, h, h0, h1, hn, hr, g1, g2, g3, g4, g5, hb⟩ := at3
  have hv : Simd.Base64.IsVariant Simd.Base64.STANDARD false true := .inl ⟨rfl, rfl, rfl⟩
  have hl : Step.Legal sender w (.par 2 (some .avx2) Simd.Base64.STANDARD ⟨⟨2, 0⟩, 3⟩ ⟨⟨1, 0⟩, 4⟩ (some 3)) :=
    can_call h h0 h1 hn hr g1 g2 g3 g4 g5 (.base64Encode (some .avx2) Simd.Base64.STANDARD ⟨⟨2, 0⟩, 3⟩ ⟨⟨1, 0⟩, 4⟩) ⟨Dispatch.runs_first _ _ _ (by decide) (by decide), false, true, hv⟩ rfl (d := 4) (by decide) rfl id
  have hfit : ∀ xs, xs.length = 3 → ∀ url pad, fits 4 (base64 url pad xs) = some (base64 url pad xs) := fun xs hx url pad => fits_pos (by
    rw [Simd.Base64.base64_length, hx]; cases pad <;> decide)
  have hnp : ¬ MayPanic sender w (.par 2 (some .avx2) Simd.Base64.STANDARD ⟨⟨2, 0⟩, 3⟩ ⟨⟨1, 0⟩, 4⟩ (some 3)) := by
    rintro (h | ⟨xs, hx, -, url, pad, -, e⟩)
    · exact absurd h (by decide)
    · rw [show fits 4 _ = _ from hfit xs hx url pad] at e; cases e
  obtain ⟨w', he⟩ := (C95_goes_on sender h hl hnp).1
  obtain ⟨res, ⟨url, pad, hv', e⟩, -, hE⟩ := C95_par sender h hl he (xs := hi) rfl hb
  obtain ⟨rfl, rfl⟩ : url = false ∧ pad = true := by
    rcases hv' with ⟨e1, rfl, rfl⟩ | ⟨e1, rfl, rfl⟩ | ⟨e1, rfl, rfl⟩ | ⟨e1, rfl, rfl⟩ <;> first | exact ⟨rfl, rfl⟩ | exact absurd e1 (by decide)
  rw [show fits 4 (base64 false true hi) = some [0x53#8, 0x47#8, 0x6b#8, 0x68#8] by decide] at e
  subst e
  obtain ⟨hE1, -, hE2⟩ := hE
  obtain ⟨ρ3, e1, -, -, -, -, e6⟩ := hE2 trivial
  exact ⟨w, w', ρ3, h, hl, he, by rw [e1]; rfl, e6, hE1⟩

/-- `let r4 = &r3[2..4]; r3[4] = b'?';`: the bytes that `r4` shows stay `69`, the second byte of `Hi!` in hex. -/
theorem at6 : ∃ w ρ4, Reaches sender w ∧ w.refs 4 = some ρ4 ∧ ρ4.excl = false ∧ (∃ ρ3, w.refs 3 = some ρ3) ∧ (∃ ρ, w.refs 2 = some ρ) ∧ w.Bytes ⟨4, 2⟩ [0x36#8, 0x39#8] := by
  obtain ⟨w, ρ, ρ3, t, h, h0, h1, hn, hr, g5, g3, e2, e3, e4, e5, e6, hb⟩ := at4
  have hI := reaches_inv h
  have r2 : w.refs 2 = some ρ := by rw [hr]; rfl
  have r3 : w.refs 3 = some ρ3 := by rw [hr]; rfl
  have n3 := (ref_name r3).1
  obtain ⟨o, ho, hok⟩ := hI.refs 2 ρ r2
  rw [g5, h0] at ho; cases ho
  obtain ⟨o, ho, hok3⟩ := hI.refs 3 ρ3 r3
  rw [e4, h1] at ho; cases ho
  have hne : w.st.home ρ.tag ≠ w.st.home ρ3.tag := fun e => by
    have := hI.apart 0 1 _ _ h0 h1 (by rw [← hok3.home, ← e]; exact hok.home.symm)
    cases this
  have only : ∀ r ρ', w.refs r = some ρ' → ρ' = ρ3 ∨ ρ' = ρ := fun r ρ' h => by
    rw [hr] at h
    dsimp only at h
    split at h
    · cases h; exact .inl rfl
    · split at h
      · cases h; exact .inr rfl
      · cases h
  have hl : Step.Legal sender w (.one (.borrow 4 false true ⟨3, 2⟩ 2)) := by
    have hi : w.Inits ⟨3, 2⟩ 2 := .inr ⟨ρ3, r3, by rw [e5]; decide, by rw [e5, e6]; decide, fun _ => e3⟩
    refine ⟨⟨hn 4 (by decide), by rw [hr]; rfl⟩, fun _ => hi, nofun, fun _ => ⟨hi, fun b i hi r ρ' hr' hc hx => ?_⟩⟩
    rcases only r ρ' hr' with rfl | rfl
    · exact Nat.le_of_eq n3.symm
    · rw [g3] at hx; cases hx
  obtain ⟨w1, he⟩ := (C95_goes_on sender h hl id).1
  have h' := Reaches.step h hl he
  obtain ⟨s2, rfl, k3, k4⟩ := make_eq (one_exec he)
  let ρ4 : Lend.Ref := ⟨w.st.next, 2, 2, false, true, w.ownerOf 3⟩
  let w1 : World := ⟨w.vars, s2, w.setRef 4 (some ρ4)⟩
  have r4 : w1.refs 4 = some ρ4 := rfl
  have r3' : w1.refs 3 = some ρ3 := r3
  have hh : ∀ t, t < w.st.next → s2.home t = w.st.home t := fun t ht => by rw [k4]; exact if_neg (by omega)
  have hh4 : s2.home w.st.next = w.st.home ρ3.tag := by rw [k4, ← n3]; exact if_pos rfl
  have hb4 : w1.Bytes ⟨4, 2⟩ [0x36#8, 0x39#8] := by
    show Reads s2.mem ⟨s2.home w.st.next, 2⟩ _
    rw [k3, hh4]
    unfold World.Bytes at hb
    have ep : place w.st ⟨w.name 1, 0⟩ = ⟨w.st.home ρ3.tag, 0⟩ := by rw [(hI.var_name h1).1, hok3.home]; rfl
    rw [ep] at hb
    have hs : 0 + (hexEncode false hi).length ≤ w.st.mem.size (w.st.home ρ3.tag) := hb.1
    rw [show (hexEncode false hi).length = 6 by decide] at hs
    refine ⟨show 2 + 2 ≤ w.st.mem.size (w.st.home ρ3.tag) by omega, fun i hj => ?_⟩
    have h2 := hb.2 (2 + i) (by
      rw [show (hexEncode false hi).length = 6 by decide]
      simp at hj; omega)
    rw [show (⟨w.st.home ρ3.tag, 2⟩ : Ptr).off + i = (⟨w.st.home ρ3.tag, 0⟩ : Ptr).off + (2 + i) by dsimp only; omega]
    refine h2.trans ?_
    have : i = 0 ∨ i = 1 := by simp at hj; omega
    rcases this with rfl | rfl <;> rfl
  have hl' : Step.Legal sender w1 (.one (.write ⟨3, 4⟩ [0x3f#8])) := by
    refine ⟨.inr ⟨ρ3, r3, by rw [e5]; exact Nat.zero_le _, by rw [e5, e6]; decide, fun _ => e2⟩, fun b i hi r ρ' hr' hc => ?_⟩
    have n3' : w1.name 3 = ρ3.tag := (ref_name r3').1
    rw [n3'] at hi ⊢
    replace hr' : (if r = 4 then some ρ4 else w.refs r) = some ρ' := hr'
    split at hr'
    · cases hr'
      have a : i < 2 + 2 := hc.2.2
      have b : 4 ≤ i := hi.2.1
      omega
    · rcases only r ρ' hr' with rfl | rfl
      · exact Nat.le_refl _
      · have a := hc.1.symm.trans hi.1
        replace a : s2.home ρ'.tag = s2.home ρ3.tag := a
        rw [hh _ hok.tag, hh _ hok3.tag] at a
        exact absurd a hne
  obtain ⟨w2, he2⟩ := (C95_goes_on sender h' hl' id).1
  obtain ⟨f1, f2⟩ := C95_frozen sender h' hl' he2 r4 rfl nofun
  exact ⟨w2, ρ4, .step h' hl' he2, f1, rfl, ⟨ρ3, refs_stay hl' he2 r3' nofun⟩, ⟨ρ, refs_stay hl' he2 (r := 2) r2 nofun⟩, f2 _ rfl hb4⟩

/-- The program of steps, from the start. -/
def runAll (P : Plat) : List Op → World → End
  | [], w => .ok w
  | op :: ops, w =>
    match exec P w op with
    | .ok w' => runAll P ops w'
    | .panic => .panic
    | .ub => .ub

/-- Whether the behaviour is undefined. -/
def End.isUb : End → Bool
  | .ub => true
  | _ => false

/-- Programs that the borrow checker does not accept have undefined behaviour in the model: a `&mut` written through after a write through the variable; a `&` used after a write through the variable; a
reference used after the variable was dropped; a `&mut` that is reborrowed, written through, and its reborrow written through. -/
example : (runAll sender.P [.new 0 false hi 4, .borrow 1 true true ⟨0, 0⟩ 3, .write ⟨0, 0⟩ [0x3f#8], .write ⟨1, 0⟩ [0x3f#8]] .start).isUb = true ∧
    (runAll sender.P [.new 0 false hi 4, .borrow 1 false true ⟨0, 0⟩ 3, .write ⟨0, 0⟩ [0x3f#8], .read ⟨1, 0⟩ 1] .start).isUb = true ∧
    (runAll sender.P [.new 0 false hi 4, .borrow 1 false true ⟨0, 0⟩ 3, .drop 0, .read ⟨1, 0⟩ 1] .start).isUb = true ∧
    (runAll sender.P [.new 0 false hi 4, .borrow 1 true true ⟨0, 0⟩ 3, .borrow 2 true true ⟨1, 0⟩ 2, .write ⟨1, 0⟩ [0x3f#8], .write ⟨2, 0⟩ [0x3f#8]] .start).isUb = true := by decide

/-- What the rules of Tree Borrows allow beyond those of Stacked Borrows, and beyond what the borrow checker accepts: a read through the variable while a `&mut` that has not been written through yet is live. -/
example : (runAll sender.P [.new 0 false hi 4, .borrow 1 true true ⟨0, 0⟩ 3, .read ⟨0, 0⟩ 1, .write ⟨1, 0⟩ [0x3f#8]] .start).isUb = false := by decide

end Use

end Simd.Tree
