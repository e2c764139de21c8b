import Verif.Lemmas.Stl
import Verif.Spec.Stl
import Verif.Lemmas.Vec
import Mathlib.Data.Finset.Max
import Mathlib.Tactic.Linarith
import Mathlib.Tactic.FieldSimp
import Mathlib.Tactic.Positivity

/-!
An IEEE-754 single precision instance of `Conv`, used for non-vacuity and witnesses.
Values beyond the largest float32 are sent to it instead of infinity.
-/

namespace Sdf.Stl

/-- Value of a finite bit pattern: sign, 8 exponent bits, 23 mantissa bits. -/
noncomputable def decode (f : F32) : ℝ :=
  let sgn : ℝ := if f.val / 2 ^ 31 = 1 then -1 else 1
  let e : ℕ := f.val / 2 ^ 23 % 256
  let m : ℕ := f.val % 2 ^ 23
  if e = 0 then sgn * m / 2 ^ 149 else sgn * (2 ^ 23 + m) * 2 ^ e / 2 ^ 150

/-- Positive zero. -/
def zero32 : F32 := ⟨0, by norm_num⟩

theorem zero32_fine : ¬ F32.Bad zero32 := by simp [F32.Bad, zero32]

theorem nearest_exists (x : ℝ) : ∃ f : F32, ¬ F32.Bad f ∧ ∀ g : F32, ¬ F32.Bad g → |decode f - x| ≤ |decode g - x| := by
  classical
  let S : Finset F32 := Finset.univ.filter fun f => ¬ F32.Bad f
  obtain ⟨f, hf, h⟩ := Finset.exists_min_image S (fun f => |decode f - x|) ⟨zero32, by simp [S, zero32_fine]⟩
  exact ⟨f, by simpa [S] using hf, fun g hg => h g (by simp [S, hg])⟩

/-- Round to nearest. -/
noncomputable def ieee : Conv := ⟨fun x => (nearest_exists x).choose, decode⟩

theorem ieee_fine (x : ℝ) : ¬ F32.Bad (ieee.f32 x) := (nearest_exists x).choose_spec.1

theorem ieee_nearest (x : ℝ) (g : F32) (hg : ¬ F32.Bad g) : |ieee.f64 (ieee.f32 x) - x| ≤ |decode g - x| :=
  (nearest_exists x).choose_spec.2 g hg

theorem ieee_exact (g : F32) (hg : ¬ F32.Bad g) : ieee.f64 (ieee.f32 (decode g)) = decode g := by
  have := ieee_nearest (decode g) g hg
  simp only [sub_self, abs_zero] at this
  have := abs_nonpos_iff.mp this
  linarith

/-- Float32 values of at least 1 are multiples of 2^-23. -/
theorem decode_grid (f : F32) (h : 1 ≤ decode f) : ∃ k : ℕ, decode f = k / 2 ^ 23 := by
  have hm : f.val % 2 ^ 23 < 2 ^ 23 := Nat.mod_lt _ (by norm_num)
  have hm' : ((f.val % 2 ^ 23 : ℕ) : ℝ) < 2 ^ 23 := by exact_mod_cast hm
  have hm0 : (0 : ℝ) ≤ ((f.val % 2 ^ 23 : ℕ) : ℝ) := by positivity
  unfold decode at h ⊢
  simp only at h ⊢
  by_cases he : f.val / 2 ^ 23 % 256 = 0
  · exfalso
    rw [if_pos he] at h
    split_ifs at h
    · have : (-1 : ℝ) * ((f.val % 2 ^ 23 : ℕ) : ℝ) / 2 ^ 149 ≤ 0 := by
        apply div_nonpos_of_nonpos_of_nonneg <;> [linarith; positivity]
      linarith
    · rw [le_div_iff₀ (by positivity)] at h
      have : (2 : ℝ) ^ 23 < 2 ^ 149 := by norm_num
      linarith
  · rw [if_neg he] at h ⊢
    set e := f.val / 2 ^ 23 % 256 with hee
    set m := f.val % 2 ^ 23 with hmm
    split_ifs at h ⊢ with hs
    · exfalso
      have : (-1 : ℝ) * (2 ^ 23 + (m : ℝ)) * 2 ^ e / 2 ^ 150 ≤ 0 := by
        apply div_nonpos_of_nonpos_of_nonneg _ (by positivity)
        have : (0 : ℝ) ≤ (2 ^ 23 + (m : ℝ)) * 2 ^ e := by positivity
        linarith
      linarith
    · have he127 : 127 ≤ e := by
        by_contra hlt
        rw [le_div_iff₀ (by positivity)] at h
        have h2 : (2 : ℝ) ^ e ≤ 2 ^ 126 := pow_le_pow_right₀ (by norm_num) (by omega)
        have h3 : (1 : ℝ) * (2 ^ 23 + m) * 2 ^ e ≤ (2 ^ 23 + m) * 2 ^ 126 := by
          rw [one_mul]; exact mul_le_mul_of_nonneg_left h2 (by positivity)
        have h4 : (2 ^ 23 + (m : ℝ)) * 2 ^ 126 < (2 ^ 23 + 2 ^ 23) * 2 ^ 126 :=
          mul_lt_mul_of_pos_right (by linarith) (by positivity)
        have h5 : ((2 : ℝ) ^ 23 + 2 ^ 23) * 2 ^ 126 = 1 * 2 ^ 150 := by norm_num
        linarith
      refine ⟨(2 ^ 23 + m) * 2 ^ (e - 127), ?_⟩
      have : (2 : ℝ) ^ e = 2 ^ (e - 127) * 2 ^ 127 := by rw [← pow_add]; congr 1; omega
      rw [this]
      push_cast
      rw [div_eq_div_iff (by positivity) (by positivity)]
      ring

theorem decode_one : decode ⟨0x3F800000, by norm_num⟩ = 1 := by norm_num [decode]
theorem decode_half : decode ⟨0x3F000000, by norm_num⟩ = 1 / 2 := by norm_num [decode]
theorem decode_tiny : decode ⟨0x33800000, by norm_num⟩ = 1 / 2 ^ 24 := by norm_num [decode]
theorem decode_zero : decode zero32 = 0 := by norm_num [decode, zero32]
theorem decode_neg_one : decode ⟨0xBF800000, by norm_num⟩ = -1 := by norm_num [decode]

theorem ieee_one : ieee.f64 (ieee.f32 1) = 1 := by
  have := ieee_exact ⟨0x3F800000, by norm_num⟩ (by simp [F32.Bad]); rwa [decode_one] at this
theorem ieee_tiny : ieee.f64 (ieee.f32 (1 / 2 ^ 24)) = 1 / 2 ^ 24 := by
  have := ieee_exact ⟨0x33800000, by norm_num⟩ (by simp [F32.Bad]); rwa [decode_tiny] at this
theorem ieee_zero : ieee.f64 (ieee.f32 0) = 0 := by
  have := ieee_exact zero32 zero32_fine; rwa [decode_zero] at this
theorem ieee_neg_one : ieee.f64 (ieee.f32 (-1)) = -1 := by
  have := ieee_exact ⟨0xBF800000, by norm_num⟩ (by simp [F32.Bad]); rwa [decode_neg_one] at this

/-- 1 + 2^-25 rounds to 1. -/
theorem ieee_absorb : ieee.f64 (ieee.f32 (1 + 1 / 2 ^ 25)) = 1 := by
  have h1 := ieee_nearest (1 + 1 / 2 ^ 25) ⟨0x3F800000, by norm_num⟩ (by simp [F32.Bad])
  rw [decode_one] at h1
  have h2 : |(1 : ℝ) - (1 + 1 / 2 ^ 25)| = 1 / 2 ^ 25 := by rw [abs_of_neg] <;> norm_num
  rw [h2, abs_le] at h1
  obtain ⟨ha, hb⟩ := h1
  have hge : 1 ≤ ieee.f64 (ieee.f32 (1 + 1 / 2 ^ 25)) := by linarith
  obtain ⟨k, hk⟩ := decode_grid _ hge
  have hk' : ieee.f64 (ieee.f32 (1 + 1 / 2 ^ 25)) = k / 2 ^ 23 := hk
  rw [hk'] at hge hb ⊢
  have h3 : 2 ^ 23 ≤ k := by
    rw [le_div_iff₀ (by positivity)] at hge
    have : ((2 ^ 23 : ℕ) : ℝ) ≤ k := by push_cast; linarith
    exact_mod_cast this
  have h4 : k < 2 ^ 23 + 1 := by
    have : (k : ℝ) < 2 ^ 23 + 1 := by
      have : (k : ℝ) / 2 ^ 23 ≤ 1 + 2 / 2 ^ 25 := by linarith
      rw [div_le_iff₀ (by positivity)] at this
      have e : (1 + 2 / 2 ^ 25 : ℝ) * 2 ^ 23 = 2 ^ 23 + 1 / 2 := by norm_num
      linarith
    exact_mod_cast this
  have : k = 2 ^ 23 := by omega
  rw [this]; norm_num

/-- A sliver whose stored normal does not survive rounding. -/
noncomputable def sliver : Tri := ⟨⟨1, 0, 0⟩, ⟨1 + 1 / 2 ^ 25, 0, 1 / 2 ^ 24⟩, ⟨1, 1 / 2 ^ 24, 0⟩⟩

theorem sliver_a : ieee.vec (ieee.f3 sliver.a) = ⟨1, 0, 0⟩ := by
  simp [Conv.vec, Conv.f3, sliver, ieee_one, ieee_zero]
theorem sliver_b : ieee.vec (ieee.f3 sliver.b) = ⟨1, 0, 1 / 2 ^ 24⟩ := by
  have h1 := ieee_absorb; have h2 := ieee_tiny; have h3 := ieee_zero
  simp only [Conv.vec, Conv.f3, sliver]
  rw [h1, h2, h3]
theorem sliver_c : ieee.vec (ieee.f3 sliver.c) = ⟨1, 1 / 2 ^ 24, 0⟩ := by
  have h1 := ieee_one; have h2 := ieee_tiny; have h3 := ieee_zero
  simp only [Conv.vec, Conv.f3, sliver]
  rw [h1, h2, h3]

theorem sliver_normal : triNormal sliver = ⟨-(1 / 2 ^ 48), 0, 1 / 2 ^ 49⟩ := by
  simp only [triNormal, sliver, V3.cross, V3.sub]
  ext <;> norm_num

theorem ieee_sane : ieee.Sane := fun x _ => ieee_fine x

theorem sliver_fine : ieee.Fine sliver := by
  refine ⟨?_, ?_, ?_, ?_, ?_⟩
  · simp [F3.Bad, Conv.f3, ieee_fine]
  · simp [F3.Bad, Conv.f3, ieee_fine]
  · simp [F3.Bad, Conv.f3, ieee_fine]
  · rw [sliver_normal]; intro h; have := congrArg V3.x h; norm_num at this
  · rintro (h | h | h)
    · have := h.2.2
      simp only [Conv.record] at this
      rw [sliver_a, sliver_b] at this
      simp only at this
      rw [abs_of_neg (by norm_num)] at this
      norm_num at this
    · have := h.2.2
      simp only [Conv.record] at this
      rw [sliver_b, sliver_c] at this
      simp only at this
      rw [abs_of_pos (by norm_num)] at this
      norm_num at this
    · have := h.2.1
      simp only [Conv.record] at this
      rw [sliver_a, sliver_c] at this
      simp only at this
      rw [abs_of_pos (by norm_num)] at this
      norm_num at this

theorem sliver_unit : V3.unit (triNormal sliver) = ⟨-2 / √5, 0, 1 / √5⟩ := by
  have h5 : (0 : ℝ) < √5 := by positivity
  have hn : V3.norm (triNormal sliver) = √5 / 2 ^ 49 := by
    rw [sliver_normal]
    simp only [V3.norm]
    rw [show (-(1 / 2 ^ 48) * -(1 / 2 ^ 48) + 0 * 0 + 1 / 2 ^ 49 * (1 / 2 ^ 49) : ℝ) = 5 / (2 ^ 49) ^ 2 by norm_num,
      Real.sqrt_div (by norm_num), Real.sqrt_sq (by norm_num)]
  rw [V3.unit, hn, sliver_normal]
  simp only [V3.scale]
  ext <;> simp only
  all_goals field_simp
  all_goals norm_num

theorem sliver_raw : ieee.rawNormal (ieee.record sliver) = ⟨-(100 / 2 ^ 48), 0, 0⟩ := by
  simp only [Conv.rawNormal, Conv.record]
  rw [sliver_a, sliver_b, sliver_c]
  simp only [V3.cross, V3.sub, V3.scale]
  ext <;> norm_num

theorem sliver_raw_unit : V3.unit (ieee.rawNormal (ieee.record sliver)) = ⟨-1, 0, 0⟩ := by
  have hn : V3.norm (⟨-(100 / 2 ^ 48), 0, 0⟩ : V3) = 100 / 2 ^ 48 := by
    simp only [V3.norm]
    rw [show (-(100 / 2 ^ 48) * -(100 / 2 ^ 48) + 0 * 0 + 0 * 0 : ℝ) = (100 / 2 ^ 48) ^ 2 by norm_num, Real.sqrt_sq (by norm_num)]
  rw [sliver_raw, V3.unit, hn]
  simp only [V3.scale]
  ext <;> norm_num

theorem sliver_mismatch : ieee.Mismatch (ieee.record sliver) := by
  have hz : 39 / 100 < ieee.f64 (ieee.f32 (1 / √5)) := by
    have h := ieee_nearest (1 / √5) ⟨0x3F000000, by norm_num⟩ (by simp [F32.Bad])
    rw [decode_half] at h
    have h5 : √5 * √5 = 5 := Real.mul_self_sqrt (by norm_num)
    have hp : 0 < √5 := by positivity
    have hlo : (2.23 : ℝ) < √5 := by
      rw [Real.lt_sqrt (by norm_num)]; norm_num
    have hhi : √5 < (2.24 : ℝ) := by
      rw [Real.sqrt_lt' (by norm_num)]; norm_num
    have h1 : 1 / √5 < 0.4485 := by rw [div_lt_iff₀ hp]; nlinarith
    have h2 : 0.446 < 1 / √5 := by rw [lt_div_iff₀ hp]; nlinarith
    rw [abs_of_pos (by linarith : (0:ℝ) < 1 / 2 - 1 / √5), abs_le] at h
    linarith [h.1]
  have hrec : ieee.vec (ieee.record sliver).normal = ⟨ieee.f64 (ieee.f32 (-2 / √5)), ieee.f64 (ieee.f32 0), ieee.f64 (ieee.f32 (1 / √5))⟩ := by
    simp only [Conv.record, Conv.unitNormal]
    rw [if_neg sliver_fine.2.2.2.1, sliver_unit]
    rfl
  have hcalc : ieee.vec (ieee.f3 (V3.unit (ieee.rawNormal (ieee.record sliver)))) = ⟨-1, 0, 0⟩ := by
    rw [sliver_raw_unit]
    simp [Conv.vec, Conv.f3, ieee_neg_one, ieee_zero]
  unfold Conv.Mismatch
  simp only
  right
  rw [hcalc, hrec]
  constructor
  · intro h
    have := (abs_le.1 h.2.2).1
    simp only at this
    linarith
  · intro h
    have := (abs_le.1 h.2.2).1
    simp only [V3.scale] at this
    linarith

theorem sliver_validate : ieee.validate (ieee.record sliver) = .normalMismatch := by
  have hf := sliver_fine
  unfold Conv.validate
  have h1 : ¬ F3.Bad (ieee.record sliver).normal := by
    simp only [Conv.record, Conv.unitNormal]
    rw [if_neg hf.2.2.2.1]
    simp [F3.Bad, Conv.f3, ieee_fine]
  have h2 : ¬ (F3.Bad (ieee.record sliver).v1 ∨ F3.Bad (ieee.record sliver).v2 ∨ F3.Bad (ieee.record sliver).v3) := by
    rintro (h | h | h)
    · exact hf.1 h
    · exact hf.2.1 h
    · exact hf.2.2.1 h
  rw [if_neg h1, if_neg h2, if_neg hf.2.2.2.2, if_pos sliver_mismatch]

end Sdf.Stl
