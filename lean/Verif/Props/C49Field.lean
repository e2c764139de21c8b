import Verif.Model.Omesh

/-! C49: difference operators of the mesh experiments. -/

namespace Sdf

open Bcc

/-- On an affine field the divergence is the trace of its matrix, times the width of the step. -/
theorem C49_divergence_affine (a b c : V3) (o : V3) (p : V3) (tol : ℝ) :
    divergence p tol (fun q => ⟨V3.dot a q + o.x, V3.dot b q + o.y, V3.dot c q + o.z⟩) = 2 * tol * (a.x + b.y + c.z) := by
  simp only [divergence, V3.sub, V3.add, V3.dot]
  ring

/-- On an affine function the gradient is its vector of coefficients, times the width of the step. -/
theorem C49_gradient_affine (g : V3) (d : ℝ) (p : V3) (tol : ℝ) : gradient p tol (fun q => V3.dot g q + d) = V3.scale (2 * tol) g := by
  simp only [gradient, V3.add, V3.dot, V3.scale, V3.mk.injEq]
  refine ⟨?_, ?_, ?_⟩ <;> ring

/-- The divergence is that of the field and not of its components in another order: for any field it only depends on the matching components. -/
theorem C49_divergence_components (f g : V3 → V3) (p : V3) (tol : ℝ)
    (hx : ∀ x, (f ⟨x, p.y, p.z⟩).x = (g ⟨x, p.y, p.z⟩).x) (hy : ∀ y, (f ⟨p.x, y, p.z⟩).y = (g ⟨p.x, y, p.z⟩).y)
    (hz : ∀ z, (f ⟨p.x, p.y, z⟩).z = (g ⟨p.x, p.y, z⟩).z) : divergence p tol f = divergence p tol g := by
  simp only [divergence, V3.sub, V3.add, add_zero, hx, hy, hz]

/-- Non-vacuity: the field pointing away from the origin. -/
example : divergence ⟨1, 2, 3⟩ (1 / 2) (fun q => ⟨V3.dot ⟨1, 0, 0⟩ q + 0, V3.dot ⟨0, 1, 0⟩ q + 0, V3.dot ⟨0, 0, 1⟩ q + 0⟩) = 3 := by
  rw [C49_divergence_affine _ _ _ ⟨0, 0, 0⟩]; norm_num

end Sdf
