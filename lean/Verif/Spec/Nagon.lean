import Verif.Model.Vec
import Mathlib.Analysis.SpecialFunctions.Trigonometric.Basic

/-! The regular polygon, independent of any construction. -/

namespace Sdf

/-- How far `p` is from the centre in the direction of the middle of side `i` of a regular polygon with `n` corners, the first
of which is on the x axis. -/
noncomputable def towardSide (n : ℕ) (i : ℤ) (p : V2) : ℝ :=
  p.x * Real.cos ((2 * i + 1) * (Real.pi / n)) + p.y * Real.sin ((2 * i + 1) * (Real.pi / n))

/-- The distance of the sides from the centre of a regular polygon with `n` corners on a circle of radius `r`. -/
noncomputable def apothem (n : ℕ) (r : ℝ) : ℝ := r * Real.cos (Real.pi / n)

end Sdf
