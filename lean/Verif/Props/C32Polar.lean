import Verif.Model.Numeric
import Verif.Lemmas.Vec
import Mathlib.Analysis.SpecialFunctions.Complex.Arg

/-! C32: polar coordinates. -/

namespace Sdf

/-- Converting a point to polar coordinates and back gives the point. -/
theorem C32_polar_of_point (a : V2) : V2.polarToXY a.toPolar.1 a.toPolar.2 = a := by
  have hn : V2.norm a = ‖(⟨a.x, a.y⟩ : ℂ)‖ := by
    rw [Complex.norm_def, Complex.normSq_mk]; rfl
  simp only [V2.polarToXY, V2.toPolar, atan2, hn]
  cases a with
  | mk x y =>
    simp only [V2.mk.injEq]
    constructor
    · exact Complex.norm_mul_cos_arg (⟨x, y⟩ : ℂ)
    · exact Complex.norm_mul_sin_arg (⟨x, y⟩ : ℂ)

/-- Converting polar coordinates to a point and back gives the coordinates, for positive radii and angles in `(-π, π]`. -/
theorem C32_point_of_polar {r θ : ℝ} (hr : 0 < r) (h : -Real.pi < θ ∧ θ ≤ Real.pi) : (V2.polarToXY r θ).toPolar = (r, θ) := by
  have e : (⟨r * Real.cos θ, r * Real.sin θ⟩ : ℂ) = r * (Complex.cos θ + Complex.sin θ * Complex.I) := by
    apply Complex.ext <;> simp [← Complex.ofReal_cos, ← Complex.ofReal_sin]
  simp only [V2.toPolar, V2.polarToXY, atan2, Prod.mk.injEq]
  constructor
  · refine V2.norm_eq_of hr.le ?_
    have := Real.sin_sq_add_cos_sq θ
    simp only
    nlinarith
  · rw [e]
    exact Complex.arg_mul_cos_add_sin_mul_I hr h

/-- The radius is never negative and the angle lies in `(-π, π]`. -/
theorem C32_polar_range (a : V2) : 0 ≤ a.toPolar.1 ∧ -Real.pi < a.toPolar.2 ∧ a.toPolar.2 ≤ Real.pi :=
  ⟨Real.sqrt_nonneg _, Complex.neg_pi_lt_arg _, Complex.arg_le_pi _⟩

/-- Non-vacuity: radius two, straight up. -/
example : (V2.polarToXY 2 (Real.pi / 2)).toPolar = (2, Real.pi / 2) :=
  C32_point_of_polar (by norm_num) ⟨by linarith [Real.pi_pos], by linarith [Real.pi_pos]⟩

end Sdf
