import Verif.Model.Vec

/-! The size of `math.MaxFloat64`. -/

namespace Sdf

theorem maxFloat64_gt : (1000000 : ℝ) < maxFloat64 := by
  unfold maxFloat64
  have h1 : (1000000 : ℝ) < 2 ^ 1023 := by
    calc (1000000 : ℝ) < 2 ^ 20 := by norm_num
      _ ≤ 2 ^ 1023 := pow_le_pow_right₀ (by norm_num) (by norm_num)
  have h2 : (1 : ℝ) ≤ 2 - (2 ^ 52 : ℝ)⁻¹ := by
    have : ((2 : ℝ) ^ 52)⁻¹ ≤ 1 := inv_le_one_of_one_le₀ (one_le_pow₀ (by norm_num))
    linarith
  calc (1000000 : ℝ) < 2 ^ 1023 := h1
    _ = 2 ^ 1023 * 1 := (mul_one _).symm
    _ ≤ _ := mul_le_mul_of_nonneg_left h2 (by positivity)

theorem maxFloat64_pos : (0 : ℝ) < maxFloat64 := lt_trans (by norm_num) maxFloat64_gt

end Sdf
