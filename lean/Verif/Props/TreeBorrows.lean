import Verif.Lemmas.TreeForgiving
import Verif.Props.Borrows
/-
C93: the slice functions obey the other aliasing rules for references, Tree Borrows.
-/
namespace Simd.Tree
open Spec (Reads Writable NoOverlap In BorrowInTurn inTurnPlain)
open Borrow (Good1 Good2 Good1.head good1_of good2_of not_in_zero)

theorem obeys_of {α : Type} {P : Plat} {s : State} {c : Call α} {o : Out α} {G : Nat → Nat → Loan} {R : α → α → State → Prop} (h : Sim (c.tree P s) o R (fun s' => AfterCall s s' G))
    (hG : ∀ b i, G b i = loans s c b i) (hR : ∀ r r' s', R r r' s' → AfterCall s s' G ∧ SameResult s s' c r r') : Obeys P s c o := by
  obtain rfl : G = loans s c := funext fun b => funext (hG b)
  unfold Sim at h
  unfold Obeys
  split at h
  · rename_i e; rw [e]; exact ⟨h.1, hR _ _ _ h.2⟩
  · rename_i e; rw [e]; exact h
  · rename_i e; rw [e]; trivial
  · exact h.elim

theorem loans2 {α : Type} {s : State} {c : Call α} {p q : Ptr} {n d : Nat} (h : c.shared = (p, n)) (h' : c.exclusive = (q, d)) (b i : Nat) :
    G2 (place s p) n p.buf (place s q) d q.buf b i = loans s c b i := by
  unfold loans
  rw [h, h']
  by_cases h1 : In (place s p) n b i
  · rw [if_pos h1]; exact over_in h1
  · rw [if_neg h1]
    refine (over_out h1).trans ?_
    by_cases h2 : In (place s q) d b i
    · rw [if_pos h2]; exact over_in h2
    · rw [if_neg h2]; exact over_out h2

theorem loans1 {α : Type} {s : State} {c : Call α} {p q : Ptr} {d : Nat} (h : c.shared = (p, 0)) (h' : c.exclusive = (q, d)) (b i : Nat) :
    G1 (place s q) d q.buf b i = loans s c b i := by
  rw [← loans2 h h' b i]
  exact (over_out not_in_zero).symm

theorem loans0 {α : Type} {s : State} {c : Call α} {p q : Ptr} {n : Nat} (h : c.shared = (p, n)) (h' : c.exclusive = (q, 0)) (b i : Nat) :
    G0 (place s p) n p.buf b i = loans s c b i := by
  rw [← loans2 h h' b i]
  by_cases h1 : In (place s p) n b i
  · exact (over_in h1).trans (over_in h1).symm
  · exact (over_out h1).trans ((over_out h1).trans (over_out not_in_zero)).symm

/-- C93: a slice function that is lent what safe Rust lends it obeys the aliasing rules for references of Tree Borrows, too: with borrow trees it has no undefined behaviour and does
what it does without them. Afterwards the tags that existed before see no change of bytes it did not borrow, at most one read through the lender's tag of those borrowed with `&`, and at most one
read or one write through the lender's tag of those borrowed with `&mut`; nothing is left protected; and a returned slice is a new reference, made from the destination's tag, that may be written through. -/
theorem C93_call (M : Machine) {α : Type} (c : Call α) (s : State) (hr : c.RunsOn M) (hs : Sound s) (hl : Lends s c) (hb : (untag s c).Borrows M.P s.mem) :
    Obeys M.P s c (((untag s c).prog M.P).run s.mem) := by
  cases c with
  | base64Encode i config src dst =>
    obtain ⟨p, n⟩ := src; obtain ⟨q, d⟩ := dst
    obtain ⟨⟨xs, hl', hx⟩, hw, hP, hP', ho⟩ := id hb
    have hG : Good2 (fun p q => Simd.Base64.encode M.P i config ⟨p, n⟩ ⟨q, d⟩) (place s p) n (place s q) d s.mem :=
      good2_of hl' (fun m p q hx hw ho => Call.fine M (.base64Encode i config ⟨p, n⟩ ⟨q, d⟩) m hr ⟨⟨xs, hl', hx⟩, hw, hP, hP', ho⟩) hx hw ho
    exact obeys_of (Base64.encode_sim M.P i config hs hl.readable hl.mutable hl.mutable.1 rfl rfl ho hG) (loans2 rfl rfl) fun _ _ _ h => h
  | base64Decode i config src dst =>
    obtain ⟨p, n⟩ := src; obtain ⟨q, d⟩ := dst
    obtain ⟨⟨xs, hl', hx⟩, hw, hP, hP', ho⟩ := id hb
    have hG : Good2 (fun p q => Simd.Base64.decode i config ⟨p, n⟩ ⟨q, d⟩) (place s p) n (place s q) d s.mem :=
      good2_of hl' (fun m p q hx hw ho => Call.fine M (.base64Decode i config ⟨p, n⟩ ⟨q, d⟩) m hr ⟨⟨xs, hl', hx⟩, hw, hP, hP', ho⟩) hx hw ho
    exact obeys_of (Base64.decode_sim i config hs hl.readable hl.mutable hl.mutable.1 rfl rfl ho hG) (loans2 rfl rfl) fun _ _ _ h => h
  | base32Encode w i config src dst =>
    obtain ⟨p, n⟩ := src; obtain ⟨q, d⟩ := dst
    obtain ⟨⟨xs, hl', hx⟩, hw, hP, hP', ho⟩ := id hb
    have hG : Good2 (fun p q => Simd.Base32.encode M.P w i config ⟨p, n⟩ ⟨q, d⟩) (place s p) n (place s q) d s.mem :=
      good2_of hl' (fun m p q hx hw ho => Call.fine M (.base32Encode w i config ⟨p, n⟩ ⟨q, d⟩) m hr ⟨⟨xs, hl', hx⟩, hw, hP, hP', ho⟩) hx hw ho
    exact obeys_of (Base32.encode_sim M.P w i config hs hl.readable hl.mutable hl.mutable.1 rfl rfl ho hG) (loans2 rfl rfl) fun _ _ _ h => h
  | base32Decode w i config src dst =>
    obtain ⟨p, n⟩ := src; obtain ⟨q, d⟩ := dst
    obtain ⟨⟨xs, hl', hx⟩, hw, hP, hP', ho⟩ := id hb
    have hG : Good2 (fun p q => Simd.Base32.decode w i config ⟨p, n⟩ ⟨q, d⟩) (place s p) n (place s q) d s.mem :=
      good2_of hl' (fun m p q hx hw ho => Call.fine M (.base32Decode w i config ⟨p, n⟩ ⟨q, d⟩) m hr ⟨⟨xs, hl', hx⟩, hw, hP, hP', ho⟩) hx hw ho
    exact obeys_of (Base32.decode_sim w i config hs hl.readable hl.mutable hl.mutable.1 rfl rfl ho hG) (loans2 rfl rfl) fun _ _ _ h => h
  | hexEncode i case src dst =>
    obtain ⟨p, n⟩ := src; obtain ⟨q, d⟩ := dst
    obtain ⟨⟨xs, hl', hx⟩, hw, hP, hP', ho⟩ := id hb
    have hG : Good2 (fun p q => Simd.Hex.encode M.P i ⟨p, n⟩ ⟨q, d⟩ case) (place s p) n (place s q) d s.mem :=
      good2_of hl' (fun m p q hx hw ho => Call.fine M (.hexEncode i case ⟨p, n⟩ ⟨q, d⟩) m hr ⟨⟨xs, hl', hx⟩, hw, hP, hP', ho⟩) hx hw ho
    exact obeys_of (Hex.encode_sim M.P i case hs hl.readable hl.mutable hl.mutable.1 rfl rfl ho hG) (loans2 rfl rfl) fun _ _ _ h => h
  | hexDecode i src dst =>
    obtain ⟨p, n⟩ := src; obtain ⟨q, d⟩ := dst
    obtain ⟨⟨xs, hl', hx⟩, hw, hP, hP', ho⟩ := id hb
    have hG : Good2 (fun p q => Simd.Hex.decode i ⟨p, n⟩ ⟨q, d⟩) (place s p) n (place s q) d s.mem :=
      good2_of hl' (fun m p q hx hw ho => Call.fine M (.hexDecode i ⟨p, n⟩ ⟨q, d⟩) m hr ⟨⟨xs, hl', hx⟩, hw, hP, hP', ho⟩) hx hw ho
    exact obeys_of (Hex.decode_sim i hs hl.readable hl.mutable hl.mutable.1 rfl rfl ho hG) (loans2 rfl rfl) fun _ _ _ h => h
  | swap t i src dst =>
    obtain ⟨p, n⟩ := src; obtain ⟨q, d⟩ := dst
    obtain ⟨⟨xs, hl', hx⟩, hw, hP, hP', ho⟩ := id hb
    have hG : Good2 (fun p q => Simd.Unicode.swap_endianness t i ⟨p, n⟩ ⟨q, d⟩) (place s p) (t.size * n) (place s q) (t.size * d) s.mem :=
      good2_of (d := t.size * d) hl' (fun m p q hx hw ho => Call.fine M (.swap t i ⟨p, n⟩ ⟨q, d⟩) m hr ⟨⟨xs, hl', hx⟩, hw, hP, hP', ho⟩) hx hw ho
    exact obeys_of (Unicode.swap_sim t i hs hl.readable hl.mutable hl.mutable.1 rfl rfl ho hG) (loans2 rfl rfl) fun _ _ _ h => h
  | uuidParse si hi src q =>
    obtain ⟨p, n⟩ := src
    obtain ⟨⟨xs, hl', hx⟩, hw, hP, hP', ho⟩ := id hb
    have hG : Good2 (fun p q => Simd.Uuid.parse si hi ⟨p, n⟩ q) (place s p) n (place s q) 16 s.mem :=
      good2_of hl' (fun m p q hx hw ho => Call.fine M (.uuidParse si hi ⟨p, n⟩ q) m hr ⟨⟨xs, hl', hx⟩, hw, hP, hP', ho⟩) hx hw ho
    have hG' : n = 45 → Good2 (fun p q => Simd.Uuid.parse_hyphenated hi ⟨p, 36⟩ q) ((place s p).add 9) 36 (place s q) 16 s.mem := by
      rintro rfl
      have hl' : xs.length = 45 := hl'
      have ho : NoOverlap (place s p) 45 (place s q) 16 := ho
      have hP : 45 ≤ M.P.isizeMax := hP
      have hd : (xs.drop 9).length = 36 := by rw [List.length_drop, hl']
      exact good2_of hd (fun m p q hx hw ho => Call.fine M (.uuidParseHyphenated hi ⟨p, 36⟩ q) m hr.2 ⟨⟨_, hd, hx⟩, hw, Nat.le_trans (show 36 ≤ 45 by decide) hP, hP', ho⟩)
        (hx.has.drop 9 (by omega)) hw fun i j hi hj h => ho (i + 9) j (show i + 9 < 45 by omega) hj ⟨h.1, by have := h.2; simp only [Ptr.add] at this; omega⟩
    exact obeys_of (Uuid.parse_sim si hi hs hl.readable hl.mutable hl.mutable.1 rfl rfl ho hG hG') (loans2 rfl rfl) fun _ _ _ h => h
  | uuidParseSimple i src q =>
    obtain ⟨p, n⟩ := src
    obtain ⟨⟨xs, hl', hx⟩, hw, hP, hP', ho⟩ := id hb
    have hG : Good2 (fun p q => Simd.Uuid.parse_simple i ⟨p, n⟩ q) (place s p) n (place s q) 16 s.mem :=
      good2_of hl' (fun m p q hx hw ho => Call.fine M (.uuidParseSimple i ⟨p, n⟩ q) m hr ⟨⟨xs, hl', hx⟩, hw, hP, hP', ho⟩) hx hw ho
    exact obeys_of (Uuid.parse_simple_sim i hs hl.readable hl.mutable hl.mutable.1 rfl rfl ho hG) (loans2 rfl rfl) fun _ _ _ h => h
  | uuidParseHyphenated i src q =>
    obtain ⟨p, n⟩ := src
    obtain ⟨⟨xs, hl', hx⟩, hw, hP, hP', ho⟩ := id hb
    have hG : Good2 (fun p q => Simd.Uuid.parse_hyphenated i ⟨p, n⟩ q) (place s p) n (place s q) 16 s.mem :=
      good2_of hl' (fun m p q hx hw ho => Call.fine M (.uuidParseHyphenated i ⟨p, n⟩ q) m hr ⟨⟨xs, hl', hx⟩, hw, hP, hP', ho⟩) hx hw ho
    exact obeys_of (Uuid.parse_hyphenated_sim i hs hl.readable hl.mutable hl.mutable.1 rfl rfl ho hG) (loans2 rfl rfl) fun _ _ _ h => h
  | uuidFormatSimple i case p q =>
    obtain ⟨⟨xs, hl', hx⟩, hw, hP, hP', ho⟩ := id hb
    have hG : Good2 (fun p q => Simd.Uuid.format_simple i p q case) (place s p) 16 (place s q) 32 s.mem :=
      good2_of hl' (fun m p q hx hw ho => Call.fine M (.uuidFormatSimple i case p q) m hr ⟨⟨xs, hl', hx⟩, hw, hP, hP', ho⟩) hx hw ho
    exact obeys_of (Uuid.format_simple_sim i case hs hl.readable hl.mutable hl.mutable.1 rfl rfl ho hG) (loans2 rfl rfl) fun _ _ _ h => h
  | uuidFormatHyphenated i case p q =>
    obtain ⟨⟨xs, hl', hx⟩, hw, hP, hP', ho⟩ := id hb
    have hG : Good2 (fun p q => Simd.Uuid.format_hyphenated i p q case) (place s p) 16 (place s q) 36 s.mem :=
      good2_of hl' (fun m p q hx hw ho => Call.fine M (.uuidFormatHyphenated i case p q) m hr ⟨⟨xs, hl', hx⟩, hw, hP, hP', ho⟩) hx hw ho
    exact obeys_of (Uuid.format_hyphenated_sim i case hs hl.readable hl.mutable hl.mutable.1 rfl rfl ho hG) (loans2 rfl rfl) fun _ _ _ h => h
  | base64Check i config data =>
    obtain ⟨p, n⟩ := data
    obtain ⟨⟨xs, hl', hx⟩, hw, hP, hP', ho⟩ := id hb
    have hG : Good1 (fun p => Simd.Base64.check i config ⟨p, n⟩) (place s p) n s.mem :=
      good1_of (fun m p hx => ⟨p, p, .inr (Call.fine M (.base64Check i config ⟨p, n⟩) m hr ⟨⟨xs, hl', hx⟩, Reads.writable0 hx, hP, hP', ho⟩)⟩) hx
    exact obeys_of (Base64.check_sim i config hs hl.readable rfl hG) (loans0 rfl rfl) fun _ _ _ h => ⟨h.2, h.1⟩
  | base32Check i config data =>
    obtain ⟨p, n⟩ := data
    obtain ⟨⟨xs, hl', hx⟩, hw, hP, hP', ho⟩ := id hb
    have hG : Good1 (fun p => Simd.Base32.check i config ⟨p, n⟩) (place s p) n s.mem :=
      good1_of (fun m p hx => ⟨p, p, .inr (Call.fine M (.base32Check i config ⟨p, n⟩) m hr ⟨⟨xs, hl', hx⟩, Reads.writable0 hx, hP, hP', ho⟩)⟩) hx
    exact obeys_of (Base32.check_sim i config hs hl.readable rfl hG) (loans0 rfl rfl) fun _ _ _ h => ⟨h.2, h.1⟩
  | hexCheck i data =>
    obtain ⟨p, n⟩ := data
    obtain ⟨⟨xs, hl', hx⟩, hw, hP, hP', ho⟩ := id hb
    have hG : Good1 (fun p => Simd.Hex.check i ⟨p, n⟩) (place s p) n s.mem :=
      good1_of (fun m p hx => ⟨p, p, .inr (Call.fine M (.hexCheck i ⟨p, n⟩) m hr ⟨⟨xs, hl', hx⟩, Reads.writable0 hx, hP, hP', ho⟩)⟩) hx
    exact obeys_of (Hex.check_sim i hs hl.readable rfl hG) (loans0 rfl rfl) fun _ _ _ h => ⟨h.2, h.1⟩
  | isAscii x64 i data =>
    obtain ⟨p, n⟩ := data
    obtain ⟨⟨xs, hl', hx⟩, hw, hP, hP', ho⟩ := id hb
    have hG : Good1 (fun p => Simd.Unicode.is_ascii x64 i ⟨p, n⟩) (place s p) n s.mem :=
      good1_of (fun m p hx => ⟨p, p, .inr (Call.fine M (.isAscii x64 i ⟨p, n⟩) m hr ⟨⟨xs, hl', hx⟩, Reads.writable0 hx, hP, hP', ho⟩)⟩) hx
    exact obeys_of (Unicode.is_ascii_sim x64 i hs hl.readable rfl hG) (loans0 rfl rfl) fun _ _ _ h => ⟨h.2, h.1⟩
  | isUtf32le i data =>
    obtain ⟨p, n⟩ := data
    obtain ⟨⟨xs, hl', hx⟩, hw, hP, hP', ho⟩ := id hb
    have hG : Good1 (fun p => Simd.Unicode.is_utf32le i ⟨p, n⟩) (place s p) (4 * n) s.mem :=
      good1_of (fun m p hx => ⟨p, p, .inr (Call.fine M (.isUtf32le i ⟨p, n⟩) m hr ⟨⟨xs, hl', hx⟩, Reads.writable0 hx, hP, hP', ho⟩)⟩) hx
    exact obeys_of (Unicode.is_utf32le_sim i hs hl.readable rfl hG) (loans0 rfl rfl) fun _ _ _ h => ⟨h.2, h.1⟩
  | base64Inplace i config data =>
    obtain ⟨p, n⟩ := data
    obtain ⟨-, -, hP, hP', xs, hl', hx⟩ := id hb
    have hG : Good1 (fun p => Simd.Base64.decode_inplace i config ⟨p, n⟩) (place s p) n s.mem :=
      good1_of (fun m p hx => ⟨p, p, .inl (Call.fine M (.base64Inplace i config ⟨p, n⟩) m hr ⟨Reads.nil hx, Reads.writable hl' hx, hP, hP', xs, hl', hx⟩)⟩) hx
    exact obeys_of (Base64.decode_inplace_sim i config hs hl.mutable rfl hG) (loans1 rfl rfl) fun _ _ _ h => h
  | base32Inplace w i config data =>
    obtain ⟨p, n⟩ := data
    obtain ⟨-, -, hP, hP', xs, hl', hx⟩ := id hb
    have hG : Good1 (fun p => Simd.Base32.decode_inplace w i config ⟨p, n⟩) (place s p) n s.mem :=
      good1_of (fun m p hx => ⟨p, p, .inl (Call.fine M (.base32Inplace w i config ⟨p, n⟩) m hr ⟨Reads.nil hx, Reads.writable hl' hx, hP, hP', xs, hl', hx⟩)⟩) hx
    exact obeys_of (Base32.decode_inplace_sim w i config hs hl.mutable rfl hG) (loans1 rfl rfl) fun _ _ _ h => h
  | hexInplace i data =>
    obtain ⟨p, n⟩ := data
    obtain ⟨-, -, hP, hP', xs, hl', hx⟩ := id hb
    have hG : Good1 (fun p => Simd.Hex.decode_inplace i ⟨p, n⟩) (place s p) n s.mem :=
      good1_of (fun m p hx => ⟨p, p, .inl (Call.fine M (.hexInplace i ⟨p, n⟩) m hr ⟨Reads.nil hx, Reads.writable hl' hx, hP, hP', xs, hl', hx⟩)⟩) hx
    exact obeys_of (Hex.decode_inplace_sim i hs hl.mutable rfl hG) (loans1 rfl rfl) fun _ _ _ h => h
  | swapInplace t i data =>
    obtain ⟨p, n⟩ := data
    obtain ⟨-, -, hP, hP', xs, hl', hx⟩ := id hb
    have hG : Good1 (fun p => Simd.Unicode.swap_endianness_inplace t i ⟨p, n⟩) (place s p) (t.size * n) s.mem :=
      good1_of (fun m p hx => ⟨p, p, .inl (Call.fine M (.swapInplace t i ⟨p, n⟩) m hr ⟨Reads.nil hx, Reads.writable hl' hx, hP, hP', xs, hl', hx⟩)⟩) hx
    exact obeys_of (Unicode.swap_inplace_sim t i hs hl.mutable rfl hG) (loans1 rfl rfl) fun _ _ _ h => h
  | forgiving fi di src dst =>
    obtain ⟨p, n⟩ := src; obtain ⟨q, d⟩ := dst
    obtain ⟨⟨xs, hl', hx⟩, hw, hP, hP', ho⟩ := id hb
    have hG : Good2 (fun p q => Simd.Base64.forgiving_decode fi di ⟨p, n⟩ ⟨q, d⟩) (place s p) n (place s q) d s.mem :=
      good2_of hl' (fun m p q hx hw ho => Call.fine M (.forgiving fi di ⟨p, n⟩ ⟨q, d⟩) m hr ⟨⟨xs, hl', hx⟩, hw, hP, hP', ho⟩) hx hw ho
    obtain rfl : xs.length = n := hl'
    exact obeys_of (Base64.forgiving_sim fi di hs hl.readable hl.mutable hl.mutable.1 rfl rfl ho hG fun pos rem m hle hpos h h' =>
      Simd.Base64.good_stripped fi (Dispatch.Runs.ne_sse2 hr.2 (by decide)) hx hw ho hle hpos h h') (loans2 rfl rfl) fun _ _ _ h => h
  | forgivingInplace fi di data =>
    obtain ⟨p, n⟩ := data
    obtain ⟨-, -, hP, hP', xs, hl', hx⟩ := id hb
    have hd := Dispatch.Runs.ne_sse2 hr.2 (by decide)
    obtain rfl : xs.length = n := hl'
    have hG : Good1 (fun p => Simd.Base64.remove_ascii_whitespace_inplace fi ⟨p, xs.length⟩) (place s p) xs.length s.mem :=
      Good1.head (K := fun _ data => Simd.Base64.decode_inplace di Simd.Base64.STANDARD_FORGIVING data)
        (good1_of (fun m p hx => ⟨p, p, .inl (Call.fine M (.forgivingInplace fi di ⟨p, xs.length⟩) m hr ⟨Reads.nil hx, Reads.writable rfl hx, hP, hP', xs, rfl, hx⟩)⟩) hx)
    exact obeys_of (Base64.forgiving_inplace_sim fi di hs hl.mutable rfl hG fun k m h => Simd.Base64.good_removed fi hd hx h) (loans1 rfl rfl) fun _ _ _ h => h

/-! ### The caller afterwards -/

theorem loans_tag {α : Type} {s : State} {c : Call α} {own : Nat → Nat → Nat} {b i : Nat} (h : In (place s c.shared.1) c.shared.2 b i → c.shared.1.buf = own b i)
    (h' : In (place s c.exclusive.1) c.exclusive.2 b i → c.exclusive.1.buf = own b i) : loans s c b i = .none ∨ Of (own b i) (loans s c b i) := by
  unfold loans
  split
  · rename_i h1; exact .inr (.inl (by rw [h h1]))
  · split
    · rename_i h1; exact .inr (.inr (by rw [h' h1]))
    · exact .inl rfl

theorem lends_after {α β : Type} {s s' : State} {c : Call α} {c' : Call β} (h : AfterCall s s' (loans s c)) {own : Nat → Nat → Nat}
    (hc : ∀ b i, (In (place s c.shared.1) c.shared.2 b i → c.shared.1.buf = own b i) ∧ (In (place s c.exclusive.1) c.exclusive.2 b i → c.exclusive.1.buf = own b i))
    (hc' : ∀ b i, (In (place s c'.shared.1) c'.shared.2 b i → c'.shared.1.buf = own b i) ∧ (In (place s c'.exclusive.1) c'.exclusive.2 b i → c'.exclusive.1.buf = own b i))
    (hl : Lends s c') : Lends s' c' :=
  ⟨h.readable (fun b i hi => by rw [(hc' b i).1 hi]; exact loans_tag (hc b i).1 (hc b i).2) hl.readable, h.mutable (fun b i hi => by rw [(hc' b i).2 hi]; exact loans_tag (hc b i).1 (hc b i).2) hl.mutable⟩

theorem untag_home {α : Type} {s s' : State} (c : Call α) (h : place s' c.shared.1 = place s c.shared.1) (h' : place s' c.exclusive.1 = place s c.exclusive.1) : untag s' c = untag s c := by
  cases c <;> simp only [untag] <;> simp only [Call.shared, Call.exclusive] at h h' <;> simp only [h, h']

theorem untag_shared {α : Type} (s : State) (c : Call α) : (untag s c).shared = (place s c.shared.1, c.shared.2) := by cases c <;> rfl
theorem untag_exclusive {α : Type} (s : State) (c : Call α) : (untag s c).exclusive = (place s c.exclusive.1, c.exclusive.2) := by cases c <;> rfl

/-- C93, afterwards: the caller still has the rights it lent, and may make the same call again. -/
theorem C93_again (M : Machine) {α : Type} (c : Call α) (s : State) (hr : c.RunsOn M) (hs : Sound s) (hl : Lends s c) (hb : (untag s c).Borrows M.P s.mem) :
    match c.tree M.P s with
    | .ok _ s' | .err s' => Sound s' ∧ Lends s' c ∧ s'.guard = s.guard ∧ ∀ b i, ¬ In (place s c.shared.1) c.shared.2 b i → ¬ In (place s c.exclusive.1) c.exclusive.2 b i → ∀ u, s.Has b u → s'.cell b i u = s.cell b i u
    | .panic => True
    | .ub => False := by
  have h := C93_call M c s hr hs hl hb
  have key : ∀ s', AfterCall s s' (loans s c) → Sound s' ∧ Lends s' c ∧ s'.guard = s.guard ∧
      ∀ b i, ¬ In (place s c.shared.1) c.shared.2 b i → ¬ In (place s c.exclusive.1) c.exclusive.2 b i → ∀ u, s.Has b u → s'.cell b i u = s.cell b i u := by
    intro s' h
    have hd : ∀ b i, In (place s c.shared.1) c.shared.2 b i → In (place s c.exclusive.1) c.exclusive.2 b i → False := fun b i h1 h2 =>
      Call.disjoint hb (b := b) (i := i) (by rw [untag_shared]; exact h1) (by rw [untag_exclusive]; exact h2)
    refine ⟨h.sound, ?_, h.guard, fun b i h1 h2 => by
      have := h.cell b i
      rw [show loans s c b i = .none by unfold loans; rw [if_neg h1, if_neg h2]] at this
      exact this.elim id False.elim⟩
    classical
    have hc : ∀ b i, (In (place s c.shared.1) c.shared.2 b i → c.shared.1.buf = if In (place s c.shared.1) c.shared.2 b i then c.shared.1.buf else c.exclusive.1.buf) ∧
        (In (place s c.exclusive.1) c.exclusive.2 b i → c.exclusive.1.buf = if In (place s c.shared.1) c.shared.2 b i then c.shared.1.buf else c.exclusive.1.buf) := fun b i =>
      ⟨fun h1 => by rw [if_pos h1], fun h2 => by rw [if_neg fun h1 => hd b i h1 h2]⟩
    exact lends_after (own := fun b i => if In (place s c.shared.1) c.shared.2 b i then c.shared.1.buf else c.exclusive.1.buf) h hc hc hl
  unfold Obeys at h
  split at h
  · rename_i e _; rw [e]; exact key _ h.2.1
  · rename_i e _; rw [e]; exact key _ h.2
  · rename_i e _; rw [e]; trivial
  · exact h.elim

/-- C93, many calls: a caller that holds one pointer for each byte (a `&`, a `&mut` or a raw pointer) may make any number of calls with them, in any order. -/
theorem C93_many (M : Machine) (cs : List (Σ α : Type, Call α)) (s : State) (hr : ∀ c ∈ cs, c.2.RunsOn M) (hs : Sound s) (hl : ∀ c ∈ cs, Lends s c.2) (ht : OneTag s cs)
    (hb : BorrowInTurn M.P (fun m c => c.Borrows M.P m) (cs.map fun c => ⟨c.1, untag s c.2⟩) s.mem) :
    match inTurn M.P cs s, inTurnPlain M.P (cs.map fun c => ⟨c.1, untag s c.2⟩) s.mem with
    | .ok _ s', .ok _ m => s'.mem = m ∧ Sound s' ∧ ∀ c ∈ cs, Lends s' c.2
    | .panic, .panic => True
    | _, _ => False := by
  obtain ⟨own, ht⟩ := ht
  suffices key : ∀ (ds : List (Σ α : Type, Call α)) (s1 : State), (∀ d ∈ ds, d ∈ cs) → Sound s1 → s.next ≤ s1.next → (∀ t, t < s.next → s1.home t = s.home t) → (∀ c ∈ cs, Lends s1 c.2) →
      BorrowInTurn M.P (fun m c => c.Borrows M.P m) (ds.map fun c => ⟨c.1, untag s c.2⟩) s1.mem →
      match inTurn M.P ds s1, inTurnPlain M.P (ds.map fun c => ⟨c.1, untag s c.2⟩) s1.mem with
      | .ok _ s', .ok _ m => s'.mem = m ∧ Sound s' ∧ ∀ c ∈ cs, Lends s' c.2
      | .panic, .panic => True
      | _, _ => False from key cs s (fun _ h => h) hs (Nat.le_refl _) (fun _ _ => rfl) hl hb
  intro ds
  induction ds with
  | nil => exact fun s1 _ hs1 _ _ hl1 _ => ⟨rfl, hs1, hl1⟩
  | cons d ds ih =>
    intro s1 hsub hs1 hn hh hl1 hb1
    have hp : ∀ c ∈ cs, place s1 c.2.shared.1 = place s c.2.shared.1 ∧ place s1 c.2.exclusive.1 = place s c.2.exclusive.1 := fun c hc =>
      ⟨by unfold place; rw [hh _ (hl c hc).readable.1], by unfold place; rw [hh _ (hl c hc).mutable.1]⟩
    have hd := hsub d List.mem_cons_self
    have e : untag s1 d.2 = untag s d.2 := untag_home _ (hp d hd).1 (hp d hd).2
    obtain ⟨hb2, hb3⟩ := hb1
    have h := C93_call M d.2 s1 (hr d hd) hs1 (hl1 d hd) (by rw [e]; exact hb2)
    rw [e] at h
    have next : ∀ s2 m, s2.mem = m → AfterCall s1 s2 (loans s1 d.2) → ((∃ r, ((untag s d.2).prog M.P).run s1.mem = .ok r m) ∨ ((untag s d.2).prog M.P).run s1.mem = .err m) →
        match inTurn M.P ds s2, inTurnPlain M.P (ds.map fun c => ⟨c.1, untag s c.2⟩) m with
        | .ok _ s', .ok _ m => s'.mem = m ∧ Sound s' ∧ ∀ c ∈ cs, Lends s' c.2
        | .panic, .panic => True
        | _, _ => False := by
      rintro s2 _ rfl ha hrun
      have hc : ∀ c ∈ cs, ∀ b i, (In (place s1 c.2.shared.1) c.2.shared.2 b i → c.2.shared.1.buf = own b i) ∧ (In (place s1 c.2.exclusive.1) c.2.exclusive.2 b i → c.2.exclusive.1.buf = own b i) :=
        fun c hc b i => by rw [(hp c hc).1, (hp c hc).2]; exact ht c hc b i
      exact ih s2 (fun c hc => hsub c (List.mem_cons_of_mem _ hc)) (ha.sound) (Nat.le_trans hn ha.next) (fun t ht' => (ha.home t (Nat.lt_of_lt_of_le ht' hn)).trans (hh t ht'))
        (fun c hc' => lends_after ha (hc d hd) (hc c hc') (hl1 c hc')) (hb3 _ hrun)
    simp only [List.map_cons, inTurn, inTurnPlain]
    unfold Obeys at h
    split at h
    · rename_i e1 e2; rw [e1, e2]; exact next _ _ h.1 h.2.1 (.inl ⟨_, e2⟩)
    · rename_i e1 e2; rw [e1, e2]; exact next _ _ h.1 h.2 (.inr e2)
    · rename_i e1 e2; rw [e1, e2]; trivial
    · exact h.elim

/-! ### Examples -/

/-- The memory `twoMem`; each of the two allocations has the tag of its owner. -/
def owned : State where
  mem := twoMem
  home := id
  next := 2
  up t u := t = u
  guard := []
  cell _ _ _ := ⟨.active, true⟩
  freed _ := false

theorem sound_owned : Sound owned :=
  ⟨fun u h => by simp [State.prot, owned] at h, fun t h => h, fun t _ => by simp [owned], fun t u _ h => by simp [owned] at h; omega, fun t u _ h => by simp [owned] at h; rw [h], fun t u v _ h h' => by
    simp [owned] at h h' ⊢; omega, fun t u v _ h h' => by simp [owned] at h h' ⊢; omega⟩

theorem allowed_owned {w : Bool} {t b i : Nat} (hb : t = b) (hi : i < twoMem.size b) : Allowed owned w t b i := by
  refine ⟨hi, rfl, fun u hu => ?_⟩
  obtain rfl : u = b := hu.2
  subst hb
  simp [State.step, owned, Cell.step, Perm.step]

theorem lends_owned {α : Type} (c : Call α) (h : c.shared.1.buf < 2) (h' : c.exclusive.1.buf < 2) (h1 : c.shared.1.off + c.shared.2 ≤ twoMem.size c.shared.1.buf)
    (h2 : c.exclusive.1.off + c.exclusive.2 ≤ twoMem.size c.exclusive.1.buf) : Lends owned c :=
  ⟨⟨h, fun b i hi => allowed_owned hi.1.symm (by
    have e : b = c.shared.1.buf := hi.1
    have := hi.2.2
    rw [e]; exact Nat.lt_of_lt_of_le this h1)⟩, ⟨h', fun b i hi => allowed_owned hi.1.symm (by
    have e : b = c.exclusive.1.buf := hi.1
    have := hi.2.2
    rw [e]; exact Nat.lt_of_lt_of_le this h2)⟩⟩

example : Obeys sender.P owned (.base64Decode (some .avx2) Simd.Base64.STANDARD ⟨⟨0, 2⟩, 4⟩ ⟨⟨1, 3⟩, 4⟩)
    ((Simd.Base64.decode (some .avx2) Simd.Base64.STANDARD ⟨⟨0, 2⟩, 4⟩ ⟨⟨1, 3⟩, 4⟩).run twoMem) :=
  have hP : 16 ≤ sender.P.isizeMax := by decide
  C93_call sender (.base64Decode (some .avx2) Simd.Base64.STANDARD ⟨⟨0, 2⟩, 4⟩ ⟨⟨1, 3⟩, 4⟩) owned ⟨Dispatch.runs_first _ _ _ (by decide) (by decide), false, true, .inl ⟨rfl, rfl, rfl⟩⟩ sound_owned
    (lends_owned _ (by decide) (by decide) (by decide) (by decide))
    ⟨reads_two 2 4 (by decide), show 3 + 4 ≤ 16 by decide, Nat.le_trans (by decide) hP, Nat.le_trans (by decide) hP, noOverlap_of_ne (show (0 : Nat) ≠ 1 by decide) _ _⟩

example : match inTurn sender.P twoCalls owned, inTurnPlain sender.P twoCalls twoMem with
    | .ok _ s', .ok _ m => s'.mem = m ∧ Sound s' ∧ ∀ c ∈ twoCalls, Lends s' c.2
    | .panic, .panic => True
    | _, _ => False := by
  have hP : 16 ≤ sender.P.isizeMax := by decide
  refine C93_many sender twoCalls owned ?_ sound_owned ?_ ⟨fun b _ => b, ?_⟩ ⟨?_, fun m hm => ⟨?_, fun _ _ => trivial⟩⟩
  · intro c hc
    rcases List.mem_cons.1 hc with rfl | hc
    · exact (Dispatch.runs_first _ _ _ (by decide) (by decide) : Dispatch.Runs sender.build sender.cpu Dispatch.unicode_is_ascii _)
    · rw [List.mem_singleton.1 hc]
      exact ⟨Dispatch.runs_first _ _ _ (by decide) (by decide), false, true, .inl ⟨rfl, rfl, rfl⟩⟩
  · intro c hc
    rcases List.mem_cons.1 hc with rfl | hc
    · exact lends_owned _ (by decide) (by decide) (by decide) (by decide)
    · rw [List.mem_singleton.1 hc]; exact lends_owned _ (by decide) (by decide) (by decide) (by decide)
  · exact fun c _ b i => ⟨fun h => h.1.symm, fun h => h.1.symm⟩
  · exact ⟨reads_two 0 6 (by decide), show 0 + 0 ≤ 16 by decide, Nat.le_trans (by decide) hP, Nat.le_trans (by decide) hP, trivial⟩
  · obtain rfl : m = twoMem := by
      obtain ⟨xs, hl, hx⟩ := reads_two 0 6 (by decide)
      have := Unicode.C60_is_ascii true (some .avx2) twoMem ⟨0, 0⟩ xs hx
      rw [hl] at this
      rcases hm with ⟨r, hm⟩ | hm
      · cases hm.symm.trans this; rfl
      · cases hm.symm.trans this
    exact ⟨reads_two 2 4 (by decide), show 3 + 4 ≤ 16 by decide, Nat.le_trans (by decide) hP, Nat.le_trans (by decide) hP, noOverlap_of_ne (show (0 : Nat) ≠ 1 by decide) _ _⟩

/-- Whether a program has undefined behaviour. -/
def Result.isUb {α : Type} : Result α → Bool
  | .ub => true
  | _ => false

/-- A pointer taken with `as_ptr` before `as_mut_ptr` may be read through until the first write through the other (under Stacked Borrows, not even that); the in-place functions, which read and write
in turns, would have undefined behaviour if they did not take both from `as_mut_ptr`. -/
example : (call (do
    let p ← arg .mut ⟨0, 2⟩ 4
    let src ← as_ptr p 4
    let _ ← as_mut_ptr p 4
    prog (loadBytes src 1)) owned).isUb = false ∧ (call (do
    let p ← arg .mut ⟨0, 2⟩ 4
    let src ← as_ptr p 4
    let dst ← as_mut_ptr p 4
    prog (do storeBytes dst [0#8]; loadBytes src 1)) owned).isUb = true ∧ (call (do
    let p ← arg .mut ⟨0, 2⟩ 4
    let dst ← as_mut_ptr p 4
    let src := dst
    prog (do storeBytes dst [0#8]; loadBytes src 1)) owned).isUb = false := by decide

/-- Writing through a pointer taken with `as_ptr` is undefined behaviour. -/
example : (call (do
    let p ← arg .mut ⟨0, 2⟩ 4
    let src ← as_ptr p 4
    prog (storeBytes src [0#8])) owned).isUb = true := by decide

/-- Writing what a caller up the stack has lent with `&` is undefined behaviour even through the owner's tag; reading it is not. -/
example : (call (do
    let _ ← arg .shared ⟨0, 2⟩ 4
    prog (storeBytes ⟨0, 2⟩ [0#8])) owned).isUb = true ∧ (call (do
    let _ ← arg .shared ⟨0, 2⟩ 4
    prog (loadBytes ⟨0, 2⟩ 1)) owned).isUb = false := by decide

/-- Reading through the owner's tag what the function has written through its `&mut` is undefined behaviour while the function runs, and allowed once it has returned. -/
example : (call (do
    let p ← arg .mut ⟨0, 2⟩ 4
    prog (storeBytes p [0#8])
    prog (loadBytes ⟨0, 2⟩ 1)) owned).isUb = true ∧ ((do
    call (do
      let p ← arg .mut ⟨0, 2⟩ 4
      prog (storeBytes p [0#8]))
    prog (loadBytes ⟨0, 2⟩ 1) : BProg (List Byte)) owned).isUb = false := by decide

/-- A pointer to a part of an allocation may be used for the rest, unlike under Stacked Borrows. -/
example : ((do
    let p ← retag .shared ⟨0, 2⟩ 1
    prog (loadBytes p 4) : BProg (List Byte)) owned).isUb = false := by decide

end Simd.Tree
