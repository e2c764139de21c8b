import Verif.Spec.Float
import Mathlib.Tactic.Linarith
import Mathlib.Tactic.Positivity
import Mathlib.Tactic.FieldSimp
import Mathlib.Tactic.NormNum

/-! Facts about rounding. -/

namespace Sdf.Fp

theorem roundEven_near (y : ℝ) : |(roundEven y : ℝ) - y| ≤ 1 / 2 := by
  have h0 := Int.fract_nonneg y
  have h1 := Int.fract_lt_one y
  have h2 := Int.floor_add_fract y
  unfold roundEven
  rw [abs_le]
  split_ifs <;> push_cast <;> constructor <;> linarith

/-- A number less than half away from an integer rounds to it. -/
theorem roundEven_eq {y : ℝ} {k : ℤ} (h : |y - k| < 1 / 2) : roundEven y = k := by
  have h1 := roundEven_near y
  have h2 : |((roundEven y - k : ℤ) : ℝ)| < 1 := by
    push_cast
    calc |(roundEven y : ℝ) - k| = |((roundEven y : ℝ) - y) + (y - k)| := by ring_nf
      _ ≤ |(roundEven y : ℝ) - y| + |y - k| := abs_add_le _ _
      _ < 1 := by linarith
  have h3 : |roundEven y - k| < 1 := by exact_mod_cast h2
  have := Int.abs_lt_one_iff.mp h3
  omega

/-- Half way above an even integer is rounded down. -/
theorem roundEven_tie {y : ℝ} {k : ℤ} (hk : Even k) (h : y = k + 1 / 2) : roundEven y = k := by
  have hf : ⌊y⌋ = k := by
    rw [Int.floor_eq_iff, h]
    constructor <;> linarith
  have hr : Int.fract y = 1 / 2 := by
    rw [Int.fract, hf, h]; ring
  unfold roundEven
  rw [hr, hf, if_neg (lt_irrefl _), if_neg (lt_irrefl _), if_pos hk]

theorem log_eq {x : ℝ} {e : ℤ} (h1 : (2 : ℝ) ^ e ≤ |x|) (h2 : |x| < (2 : ℝ) ^ (e + 1)) : Int.log 2 |x| = e := by
  have hx : 0 < |x| := lt_of_lt_of_le (zpow_pos (by norm_num) _) h1
  have a : e ≤ Int.log 2 |x| := (Int.zpow_le_iff_le_log (by norm_num) hx).mp (by exact_mod_cast h1)
  have b : Int.log 2 |x| < e + 1 := (Int.lt_zpow_iff_log_lt (by norm_num) hx).mp (by exact_mod_cast h2)
  omega

theorem rn_eq {p : ℕ} {x : ℝ} (e k : ℤ) (h1 : (2 : ℝ) ^ e ≤ |x|) (h2 : |x| < (2 : ℝ) ^ (e + 1))
    (h : |x / (2 : ℝ) ^ (e + 1 - p) - k| < 1 / 2) : rn p x = k * (2 : ℝ) ^ (e + 1 - p) := by
  unfold rn
  simp only [log_eq h1 h2, roundEven_eq h]

theorem rn_tie {p : ℕ} {x : ℝ} (e k : ℤ) (h1 : (2 : ℝ) ^ e ≤ |x|) (h2 : |x| < (2 : ℝ) ^ (e + 1)) (hk : Even k)
    (h : x / (2 : ℝ) ^ (e + 1 - p) = k + 1 / 2) : rn p x = k * (2 : ℝ) ^ (e + 1 - p) := by
  unfold rn
  simp only [log_eq h1 h2, roundEven_tie hk h]

/-- Integers (times a power of two) that fit into the bits are not changed. -/
theorem rn_exact {p : ℕ} {x : ℝ} (e k : ℤ) (h1 : (2 : ℝ) ^ e ≤ |x|) (h2 : |x| < (2 : ℝ) ^ (e + 1))
    (h : x = k * (2 : ℝ) ^ (e + 1 - p)) : rn p x = x := by
  have : x / (2 : ℝ) ^ (e + 1 - p) - k = 0 := by
    rw [h]; field_simp; ring
  rw [rn_eq e k h1 h2 (by rw [this]; norm_num), ← h]

theorem rn_zero (p : ℕ) : rn p 0 = 0 := by
  unfold rn
  have : roundEven 0 = 0 := roundEven_eq (by norm_num)
  simp [this]

/-- The relative error of rounding. -/
theorem rn_near (p : ℕ) (x : ℝ) : |rn p x - x| ≤ (2 : ℝ) ^ (-(p : ℤ)) * |x| := by
  by_cases hx : x = 0
  · subst hx; rw [rn_zero]; simp
  have hx' : 0 < |x| := abs_pos.mpr hx
  unfold rn
  simp only
  set e := Int.log 2 |x| with he
  have h1 : (2 : ℝ) ^ e ≤ |x| := by
    have := Int.zpow_log_le_self (b := 2) (r := |x|) (by norm_num) hx'
    exact_mod_cast this
  set w : ℝ := (2 : ℝ) ^ (e + 1 - p) with hw
  have hw0 : 0 < w := zpow_pos (by norm_num) _
  have h2 := roundEven_near (x / w)
  have h3 : (roundEven (x / w) : ℝ) * w - x = ((roundEven (x / w) : ℝ) - x / w) * w := by
    field_simp
  rw [h3, abs_mul, abs_of_pos hw0]
  have h4 : w = 2 * ((2 : ℝ) ^ (-(p : ℤ)) * (2 : ℝ) ^ e) := by
    rw [hw, ← zpow_add₀ (by norm_num), mul_comm, ← zpow_add_one₀ (by norm_num)]
    congr 1; ring
  calc |(roundEven (x / w) : ℝ) - x / w| * w ≤ 1 / 2 * w := mul_le_mul_of_nonneg_right h2 hw0.le
    _ = (2 : ℝ) ^ (-(p : ℤ)) * (2 : ℝ) ^ e := by rw [h4]; ring
    _ ≤ _ := mul_le_mul_of_nonneg_left h1 (zpow_pos (by norm_num) _).le

/-- float64 computes with a relative error of 2^-53. -/
theorem float64_accurate : float64.Accurate (2 ^ (-53 : ℤ)) where
  add _ _ := rn_near 53 _
  sub _ _ := rn_near 53 _
  mul _ _ := rn_near 53 _
  div _ _ := rn_near 53 _

theorem exact_accurate : exact.Accurate 0 where
  add _ _ := by simp [exact]
  sub _ _ := by simp [exact]
  mul _ _ := by simp [exact]
  div _ _ := by simp [exact]

theorem roundEven_int (k : ℤ) : roundEven (k : ℝ) = k := roundEven_eq (by simp)

theorem roundEven_neg (y : ℝ) : roundEven (-y) = -roundEven y := by
  by_cases h0 : Int.fract y = 0
  · have hy : y = (⌊y⌋ : ℝ) := by have := Int.floor_add_fract y; rw [h0, add_zero] at this; exact this.symm
    rw [hy, show -(⌊y⌋ : ℝ) = ((-⌊y⌋ : ℤ) : ℝ) by push_cast; rfl, roundEven_int, roundEven_int]
  · have hf : Int.fract (-y) = 1 - Int.fract y := Int.fract_neg h0
    have hfl : ⌊-y⌋ = -⌊y⌋ - 1 := by
      have h1 := Int.floor_add_fract y
      have h2 := Int.floor_add_fract (-y)
      rw [hf] at h2
      have : ((⌊-y⌋ : ℤ) : ℝ) = ((-⌊y⌋ - 1 : ℤ) : ℝ) := by push_cast; linarith
      exact_mod_cast this
    unfold roundEven
    rw [hf, hfl]
    rcases lt_trichotomy (Int.fract y) (1 / 2) with h | h | h
    · rw [if_neg (by linarith), if_pos (by linarith), if_pos h]; ring
    · have a1 : ¬ (1 - Int.fract y < 1 / 2) := by linarith
      have a2 : ¬ (1 / 2 < 1 - Int.fract y) := by linarith
      have a3 : ¬ (Int.fract y < 1 / 2) := by linarith
      have a4 : ¬ (1 / 2 < Int.fract y) := by linarith
      rw [if_neg a1, if_neg a2, if_neg a3, if_neg a4]
      by_cases he : Even ⌊y⌋
      · have : ¬ Even (-⌊y⌋ - 1) := by rw [Int.even_sub, even_neg]; simp [he]
        rw [if_neg this, if_pos he]; ring
      · have : Even (-⌊y⌋ - 1) := by rw [Int.even_sub, even_neg]; simp [he]
        rw [if_pos this, if_neg he]; ring
    · rw [if_pos (by linarith), if_neg (by linarith), if_pos h]; ring

/-- Rounding to nearest treats both signs alike. -/
theorem rn_neg (p : ℕ) (x : ℝ) : rn p (-x) = -rn p x := by
  unfold rn
  simp only [abs_neg, neg_div, roundEven_neg]
  push_cast
  ring

end Sdf.Fp
