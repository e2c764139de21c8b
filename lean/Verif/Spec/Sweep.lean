import Verif.Spec.Shape
import Mathlib.Analysis.SpecialFunctions.Trigonometric.Basic

/-! What it means to sweep a profile about the z axis. -/

namespace Sdf

/-- The profile at positive distance `r` from the axis, turned through the angle `φ` (anticlockwise from the x axis),
covers `p`. -/
def SweptAt (s : SDF2) (φ : ℝ) (p : V3) : Prop :=
  ∃ r, 0 < r ∧ p.x = r * Real.cos φ ∧ p.y = r * Real.sin φ ∧ s.Inside ⟨r, p.z⟩

/-- Some position of the sweep from angle zero to `theta`, ends excluded, covers `p`. -/
def Swept (s : SDF2) (theta : ℝ) (p : V3) : Prop := ∃ φ, 0 < φ ∧ φ < theta ∧ SweptAt s φ p

/-- The full solid of revolution: some rotation about the z axis takes `p` into the half plane of the profile. -/
def FullySwept (s : SDF2) (p : V3) : Prop := ∃ r φ, 0 ≤ r ∧ p.x = r * Real.cos φ ∧ p.y = r * Real.sin φ ∧ s.Inside ⟨r, p.z⟩

end Sdf
