import Verif.Props.AnywhereHeap
import Verif.Props.AnywhereText
import Verif.Props.Variants
import Verif.Props.Dispatch
/-
C76: texts travel between machines. The sender and the receiver may differ in target, compile-time features, CPU, word size and in how their threads
raced when the implementations were chosen.
-/
namespace Simd
open Dispatch

/-- A machine: how the crates were built, the CPU, the word size. -/
structure Machine where
  build : Build
  cpu : Cpu
  P : Plat

/-- `cfg!(target_arch = "wasm32")`, on which the scalar code of base32-simd depends. -/
def Machine.wasm (M : Machine) : Bool := M.build.arch == .wasm32

/-- `i` may be executed on the machine for the `dispatch!` invocation `d`. -/
def Machine.Runs (M : Machine) (d : Params) (i : Option Isa) : Prop := Dispatch.Runs M.build M.cpu d i

/-- C76 for base64-simd: whatever `encode_to_string` produces on one machine, `decode_to_vec` of the same variant turns into the same bytes on any other; so does
`forgiving_decode_to_vec` for the standard alphabet, padded or not. -/
theorem C76_base64 (A B : Machine) {e d f : Option Isa} (he : A.Runs base64_encode e) (hd : B.Runs base64_decode d) (_ : B.Runs base64_find f)
    {config url pad} (hv : Base64.IsVariant config url pad) (m : Mem) (p : Ptr) (xs : List Byte) (hr : Spec.Reads m p xs) (hp : p.buf < m.nbuf)
    (hx : xs.length ≤ A.P.isizeMax) (ht : (Spec.base64 url pad xs).length ≤ A.P.usizeMax / 2) :
    ∃ v m' t, (Base64.encode_to_string A.P e config ⟨p, xs.length⟩).run m = .ok v m' ∧ Spec.IsVec m' v t ∧
      ∀ n q, Spec.Reads n q t → q.buf < n.nbuf → t.length ≤ B.P.isizeMax →
        (∃ w n', (Base64.decode_to_vec B.P d config ⟨q, t.length⟩).run n = .ok w n' ∧ Spec.IsVec n' w xs) ∧
        (url = false → ∀ extra, t.length + extra ≤ B.P.isizeMax →
          ∃ w n', (Base64.forgiving_decode_to_vec B.P extra f d ⟨q, t.length⟩).run n = .ok w n' ∧ Spec.IsVec n' w xs) := by
  have he := Dispatch.Runs.ne_sse2 he (by decide)
  have hd := Dispatch.Runs.ne_sse2 hd (by decide)
  obtain ⟨v, m', h1, h2, -⟩ := ((Base64.C61_encode_owned A.P he hv m p xs hr hp hx).1 ht).2
  refine ⟨v, m', _, h1, h2.2, fun n q hq hb hl => ⟨?_, ?_⟩⟩
  · obtain ⟨w, n', h3, h4, -⟩ := ((Base64.C61_decode_owned B.P hd hv n q _ hq hb hl).1 xs rfl).2
    exact ⟨w, n', h3, h4.2⟩
  · rintro rfl extra hl
    obtain ⟨w, n', h3, h4, -⟩ := (Base64.C61_forgiving B.P extra f hd n q _ hq hb hl).1 xs (forgiving_strict pad xs)
    exact ⟨w, n', h3, h4.2⟩

theorem Base32.impl_of_runs {M : Machine} {d : Params} {i : Option Isa} (h : M.Runs d i) (h1 : Target.sse2 ∉ d.targets ++ d.fastest)
    (h2 : Target.ssse3 ∉ d.targets ++ d.fastest) : Base32.Impl i := fun s hs =>
  ⟨fun h' => Dispatch.Runs.ne_sse2 h h1 (by rw [hs, h']), fun h' => Dispatch.Runs.ne_ssse3 h h2 (by rw [hs, h'])⟩

/-- C76 for base32-simd. -/
theorem C76_base32 (A B : Machine) {e d : Option Isa} (he : A.Runs base32_encode e) (hd : B.Runs base32_decode d)
    {config hex pad} (hv : Base32.IsVariant config hex pad) (m : Mem) (p : Ptr) (xs : List Byte) (hr : Spec.Reads m p xs) (hp : p.buf < m.nbuf)
    (hx : xs.length ≤ A.P.isizeMax) (ht : (Spec.base32 hex pad xs).length ≤ A.P.usizeMax / 2) :
    ∃ v m' t, (Base32.encode_to_string A.P A.wasm e config ⟨p, xs.length⟩).run m = .ok v m' ∧ Spec.IsVec m' v t ∧
      ∀ n q, Spec.Reads n q t → q.buf < n.nbuf → t.length ≤ B.P.isizeMax →
        ∃ w n', (Base32.decode_to_vec B.P B.wasm d config ⟨q, t.length⟩).run n = .ok w n' ∧ Spec.IsVec n' w xs := by
  have he := Base32.impl_of_runs he (by decide) (by decide)
  have hd := Base32.impl_of_runs hd (by decide) (by decide)
  obtain ⟨v, m', h1, h2, -⟩ := ((Base32.C61_encode_owned A.P A.wasm he hv m p xs hr hp hx).1 ht).2
  refine ⟨v, m', _, h1, h2.2, fun n q hq hb hl => ?_⟩
  obtain ⟨w, n', h3, h4, -⟩ := ((Base32.C61_decode_owned B.P B.wasm hd hv n q _ hq hb hl).1 xs rfl).2
  exact ⟨w, n', h3, h4.2⟩

/-- C76 for hex-simd, in either case. -/
theorem C76_hex (A B : Machine) {e d : Option Isa} (_ : A.Runs hex_encode e) (_ : B.Runs hex_decode d) (case : AsciiCase)
    (m : Mem) (p : Ptr) (xs : List Byte) (hr : Spec.Reads m p xs) (hp : p.buf < m.nbuf)
    (hx : xs.length ≤ A.P.isizeMax) (ht : 2 * xs.length ≤ A.P.usizeMax / 2) :
    ∃ v m' t, (Hex.encode_to_string A.P e ⟨p, xs.length⟩ case).run m = .ok v m' ∧ Spec.IsVec m' v t ∧
      ∀ n q, Spec.Reads n q t → q.buf < n.nbuf → t.length ≤ B.P.isizeMax →
        ∃ w n', (Hex.decode_to_vec B.P d ⟨q, t.length⟩).run n = .ok w n' ∧ Spec.IsVec n' w xs := by
  obtain ⟨v, m', h1, h2, -⟩ := ((Hex.C61_encode_owned A.P e case m p xs hr hp hx).1 (by rw [Hex.hexEncode_length]; exact ht)).2
  refine ⟨v, m', _, h1, h2.2, fun n q hq hb hl => ?_⟩
  obtain ⟨w, n', h3, h4, -⟩ := ((Hex.C61_decode_owned B.P d n q _ hq hb hl).1 xs (Hex.isHexOf_encode _ xs)).2
  exact ⟨w, n', h3, h4.2⟩

/-- C76 for uuid-simd: what the formatters write on one machine, `parse` reads back on any other. -/
theorem C76_uuid (A B : Machine) {fs fh ps ph : Option Isa} (_ : A.Runs uuid_format_simple fs) (hf : A.Runs uuid_format_hyphenated fh)
    (_ : B.Runs uuid_parse_simple ps) (hh : B.Runs uuid_parse_hyphenated ph) (case : AsciiCase) (hyphens : Bool)
    (m : Mem) (p o : Ptr) (u : List Byte) (hu : u.length = 16) (hr : Spec.Reads m p u) (hw : Spec.Writable m o 36) (ho : Spec.NoOverlap p 16 o 36) :
    ∃ s m' t, (if hyphens then Uuid.format_hyphenated fh p o case else Uuid.format_simple fs p o case).run m = .ok s m' ∧
      s.len = t.length ∧ Spec.Reads m' s.ptr t ∧
      ∀ n q r, Spec.Reads n q t → Spec.Writable n r 16 → Spec.NoOverlap q t.length r 16 →
        ∃ n', (Uuid.parse ps ph ⟨q, t.length⟩ r).run n = .ok ⟨r, 16⟩ n' ∧ Spec.Reads n' r u := by
  have hf : Uuid.HypImpl fh := ⟨Dispatch.Runs.ne_sse2 hf (by decide), Dispatch.Runs.ne_ssse3 hf (by decide)⟩
  have hh : Uuid.HypImpl ph := ⟨Dispatch.Runs.ne_sse2 hh (by decide), Dispatch.Runs.ne_ssse3 hh (by decide)⟩
  have hwr : ∀ {m m' : Mem} {q : Ptr} {ys : List Byte}, Spec.Wrote m m' q ys → Spec.Writable m q ys.length → Spec.Reads m' q ys :=
    fun h hw => ⟨by rw [h.2.1]; exact hw, h.2.2.1⟩
  have hps : ∀ t, Spec.IsUuid t u → ∀ n q r, Spec.Reads n q t → Spec.Writable n r 16 → Spec.NoOverlap q t.length r 16 →
      ∃ n', (Uuid.parse ps ph ⟨q, t.length⟩ r).run n = .ok ⟨r, 16⟩ n' ∧ Spec.Reads n' r u := by
    intro t hi n q r h1 h2 h3
    obtain ⟨n', h4, h5⟩ := (Uuid.C60_parse ps hh n q r t h1 h2 h3).1 u hi
    exact ⟨n', h4, hwr h5 (by rw [hu]; exact h2)⟩
  cases hyphens with
  | false =>
    have hl : (Spec.uuidSimple (case == .upper) u).length = 32 := by rw [Spec.uuidSimple, Hex.hexEncode_length]; omega
    have hw' : Spec.Writable m o 32 := by unfold Spec.Writable at hw ⊢; omega
    obtain ⟨m', h1, h2⟩ := Uuid.C60_format_simple fs case m p o u hu hr hw' (fun i j hi hj => ho i j hi (by omega))
    exact ⟨_, m', _, h1, hl.symm, hwr h2 (by rw [hl]; exact hw'), hps _ (.inl ⟨hu, Uuid.lower_simple _ u⟩)⟩
  | true =>
    obtain ⟨m', h1, h2⟩ := Uuid.C60_format_hyphenated hf case m p o u hu hr hw ho
    have hl : (Spec.uuidHyphenated (case == .upper) u).length = 36 := by
      unfold Spec.uuidHyphenated
      simp only [List.length_append, Hex.hexEncode_length, List.length_take, List.length_drop, List.length_cons, List.length_nil]
      omega
    exact ⟨_, m', _, h1, hl.symm, hwr h2 (by rw [hl]; exact hw), hps _ (.inr (.inl ⟨hu, Uuid.lower_hyphenated _ u⟩))⟩

/-- The hypotheses are met: an x86-64 machine that detects AVX2 at run time sends, a wasm32 machine with `simd128` receives. -/
def sender : Machine := ⟨⟨.x86_64, true, false, fun t => t == .sse2⟩, fun t => t == .sse2 || t == .avx2, ⟨64, by omega⟩⟩
def receiver : Machine := ⟨⟨.wasm32, false, false, fun t => t == .simd128⟩, fun _ => false, ⟨32, by omega⟩⟩

example : sender.Runs base64_encode (some .avx2) ∧ sender.Runs base32_encode (some .avx2) ∧ sender.Runs hex_encode (some .avx2) ∧
    receiver.Runs base64_decode (some .wasm128) ∧ receiver.Runs base64_find (some .wasm128) ∧ receiver.Runs base32_decode (some .wasm128) ∧
    receiver.Runs hex_decode (some .wasm128) ∧ receiver.wasm = true ∧ sender.wasm = false ∧
    Spec.Reads heapMem ⟨0, 1⟩ [0x41#8, 0x42#8] := by
  have hd : ∀ {d i}, auto_direct receiver.build d = i → receiver.Runs d i := fun h => by
    unfold Machine.Runs Dispatch.Runs; rw [if_pos (by decide)]; exact h.symm
  refine ⟨runs_first _ _ _ (by decide) (by decide), runs_first _ _ _ (by decide) (by decide), runs_first _ _ _ (by decide) (by decide), hd (by decide), hd (by decide),
    hd (by decide), hd (by decide), rfl, rfl, by decide, fun i h => ?_⟩
  have : i = 0 ∨ i = 1 := by simp at h; omega
  rcases this with rfl | rfl <;> rfl

end Simd
