import Verif.Spec.Shape
import Mathlib.Analysis.SpecialFunctions.Trigonometric.Basic

/-! Rotations about the origin and the z axis, and sectors. -/

namespace Sdf

/-- The point turned anticlockwise by the angle `a` about the origin. -/
noncomputable def V2.turned (a : ℝ) (p : V2) : V2 :=
  ⟨Real.cos a * p.x - Real.sin a * p.y, Real.sin a * p.x + Real.cos a * p.y⟩

/-- The point turned anticlockwise by the angle `a` about the z axis. -/
noncomputable def V3.turned (a : ℝ) (p : V3) : V3 :=
  ⟨Real.cos a * p.x - Real.sin a * p.y, Real.sin a * p.x + Real.cos a * p.y, p.z⟩

/-- The sector of opening `theta` about the x axis: the points whose polar angle lies in `[-theta/2, theta/2)`, and the
origin. -/
def InSector (theta x y : ℝ) : Prop :=
  ∃ r φ, 0 ≤ r ∧ -(theta / 2) ≤ φ ∧ φ < theta / 2 ∧ x = r * Real.cos φ ∧ y = r * Real.sin φ

end Sdf
