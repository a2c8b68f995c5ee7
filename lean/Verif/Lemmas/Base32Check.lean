import Verif.Lemmas.Base32Decode
/-
Every implementation of base32 checking accepts exactly what the decoders accept.
-/
namespace Simd.Base32
open Vs IsaId Intrin

/-- The texts the decoders accept. -/
def good (kind : Kind) (xs : List Byte) : Bool := (dec32 (val kind) xs).isSome

theorem good_append (kind) {xs ys : List Byte} (h : xs.length % 8 = 0) :
    good kind (xs ++ ys) = (good kind xs && good kind ys) := by
  unfold good
  rw [dec32_app _ h]
  cases dec32 (val kind) xs <;> cases dec32 (val kind) ys <;> rfl

theorem good_block (kind) {xs : List Byte} (k : Nat) (h : xs.length = 8 * k) :
    (good kind xs = false ↔ ∃ c ∈ xs, val kind c = 255#8) := by
  unfold good
  rw [dec32_blocks _ k _ h, ← decB_none_iff (a := 8) (g := decG)]
  cases decB (val kind) 8 decG xs <;> simp

theorem extra_case_check {m p kind k s M} {xs : List Byte} {mask : BitVec 64} (ht : Tail k s M) (hs : HasBytes m p xs) (hl : xs.length = k)
    (hmask : mask.toNat = 2 ^ s - 1) (he : dec32 (val kind) xs = decT (val kind) M (digits 5 (xs.map (val kind)) % 2 ^ s) xs) :
    Checks (do
      let (u, flag) ← decode_bits k p (table kind)
      ensure (flag != 0xff && (u &&& mask) == 0)
      write_opt false M none (u >>> s)) () (good kind) xs m := by
  unfold Checks
  refine extra_wp ht hs hl hmask (f := fun u => write_opt false M none u) ?_ ?_
  · intro hv hz u hu
    refine ⟨rfl, ?_, rfl⟩
    rw [good, he, decT, if_pos ⟨hv, hz⟩]; rfl
  · intro h
    refine ⟨?_, rfl⟩
    rw [good, he, decT, if_neg h]; rfl

theorem check_extra_spec {m p kind} {xs : List Byte} {k : Nat} (hs : HasBytes m p xs) (hl : xs.length = k) (hk : k < 8) (hok : OkLen k) :
    Checks (decode_extra false p k none (table kind)) () (good kind) xs m := by
  match k, xs, hl with
  | 0, [], _ => exact Checks.nil rfl rfl
  | 2, [a, b], _ =>
    exact extra_case_check (s := 2) (M := 1) (.inl ⟨rfl, rfl, rfl⟩) hs rfl rfl
      (congrArg (fun t => decT (val kind) 1 t [a, b]) (by simp [digits]; omega))
  | 4, [a, b, c, d], _ =>
    exact extra_case_check (s := 4) (M := 2) (.inr (.inl ⟨rfl, rfl, rfl⟩)) hs rfl rfl
      (congrArg (fun t => decT (val kind) 2 t [a, b, c, d]) (by simp [digits]; omega))
  | 5, [a, b, c, d, e], _ =>
    exact extra_case_check (s := 1) (M := 3) (.inr (.inr (.inl ⟨rfl, rfl, rfl⟩))) hs rfl rfl
      (congrArg (fun t => decT (val kind) 3 t [a, b, c, d, e]) (by simp [digits]; omega))
  | 7, [a, b, c, d, e, f, g], _ =>
    exact extra_case_check (s := 3) (M := 4) (.inr (.inr (.inr ⟨rfl, rfl, rfl⟩))) hs rfl rfl
      (congrArg (fun t => decT (val kind) 4 t [a, b, c, d, e, f, g]) (by simp [digits]; omega))
  | 1, _, _ => simp [OkLen] at hok
  | 3, _, _ => simp [OkLen] at hok
  | 6, _, _ => simp [OkLen] at hok

theorem check_fallback_spec {m p kind} {xs : List Byte} {n : Nat} (hs : HasBytes m p xs) (hl : xs.length = n) (hok : OkLen n) :
    Checks (check_fallback p n kind) () (good kind) xs m := by
  have hb := hs.bound
  unfold check_fallback
  refine Checks.padd (by omega) ?_
  rw [show n / 8 * 8 = 8 * (n / 8) by omega]
  refine Checks.seq (k := 8 * (n / 8)) (good_append _ (by rw [List.length_take]; omega))
    (check_loop_spec (F := fun e p => check_loop8 (table kind) e p) (ret := id) (a := 8) (by omega)
      (fun e p h => by rw [check_loop8, if_neg h]; rfl) (show good kind [] = true from rfl) (fun xs ys h => good_append _ (by omega))
      (by
        intro e m p xs Q E he hl hs hk hf
        have hb := hs.bound
        rw [check_loop8, if_pos he]
        obtain ⟨u, flag, hflag, _, hiff⟩ := decode_bits_wp (kind := kind) hs hl (by omega)
        rw [wp_bind, hiff]
        simp only [wp_bind, wp_ensure, wp_padd]
        rw [← good_block kind 1 (by omega)] at hflag
        split
        · rename_i h
          refine ⟨by omega, hk ?_⟩
          cases hg : good kind xs
          · rw [hflag.2 hg] at h; cases h
          · rfl
        · rename_i h
          refine hf (hflag.1 ?_)
          simpa using h)
      (n / 8) m p _ (by rw [List.length_take]; omega) (hs.take _)) ?_
  exact check_extra_spec (hs.drop _ (by omega)) (by rw [List.length_drop]; omega) (by omega) (by unfold OkLen at *; omega)

theorem check_simd_spec {s : Isa} (his : s ≠ .sse2) {m p kind} {xs : List Byte} {n : Nat} (hs : HasBytes m p xs) (hl : xs.length = n) (hok : OkLen n) :
    Checks (check_simd s p n kind) () (good kind) xs m := by
  have hb := hs.bound
  unfold check_simd
  refine Checks.padd (by omega) ?_
  rw [show n / 32 * 32 = 32 * (n / 32) by omega]
  refine Checks.seq (k := 32 * (n / 32)) (good_append _ (by rw [List.length_take]; omega))
    (check_loop_spec (F := fun e p => check_loop32 s (ALSW_CHECK_X2 kind) e p) (ret := id) (a := 32) (by omega)
      (fun e p h => by rw [check_loop32, if_neg h]; rfl) (show good kind [] = true from rfl) (fun xs ys h => good_append _ (by omega))
      (by
        intro e m p xs Q E he hl hs hk hf
        have hb := hs.bound
        have hgb := good_block kind (xs := xs) 4 (by omega)
        have hall : (allLane 32 fun i => val kind ((Vec.ofList xs : Vec 32).lane i) != 255#8) = good kind xs := by
          rw [← all_good (val kind) xs hl] at hgb
          exact (Bool.eq_iff_iff.2 (by rw [← Bool.not_eq_false, ← Bool.not_eq_false, hgb])).symm
        rw [check_loop32, if_pos he]
        simp only [wp_bind, wp_v256_load hs hl, check_ascii_xn_spec (alsw_good kind) (check := ALSW_CHECK_X2 kind)
          (holds32 _) (holds32 _) s his (.ofList xs), wp_liftO_some, wp_ensure, wp_padd, hall]
        split
        · rename_i hg
          exact ⟨by omega, hk hg⟩
        · rename_i hg
          exact hf (by simpa using hg))
      (n / 32) m p _ (by rw [List.length_take]; omega) (hs.take _)) ?_
  exact check_fallback_spec (hs.drop _ (by omega)) (by rw [List.length_drop]; omega) (by unfold OkLen at *; omega)

theorem check_auto_spec {i : Option Isa} (hi : i ≠ some .sse2) {m p kind} {xs : List Byte} {n : Nat} (hs : HasBytes m p xs) (hl : xs.length = n) (hok : OkLen n) :
    Checks (check_auto i p n kind) () (good kind) xs m := by
  cases i with
  | none => exact check_fallback_spec hs hl hok
  | some s => exact check_simd_spec (fun h => hi (by rw [h])) hs hl hok

end Simd.Base32
