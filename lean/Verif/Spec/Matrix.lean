import Verif.Model.Matrix
import Mathlib.LinearAlgebra.Matrix.Determinant.Basic
import Mathlib.LinearAlgebra.Matrix.Notation

/-!
What the matrices of /repo/matrix.go are supposed to be, in terms of Mathlib's matrices and of maps of space.
-/

namespace Sdf

/-- The entries as a Mathlib matrix. -/
def M44.toMatrix (a : M44) : Matrix (Fin 4) (Fin 4) ℝ :=
  !![a.x00, a.x01, a.x02, a.x03; a.x10, a.x11, a.x12, a.x13;
     a.x20, a.x21, a.x22, a.x23; a.x30, a.x31, a.x32, a.x33]

/-- The entries as a Mathlib matrix. -/
def M33.toMatrix (a : M33) : Matrix (Fin 3) (Fin 3) ℝ :=
  !![a.x00, a.x01, a.x02; a.x10, a.x11, a.x12; a.x20, a.x21, a.x22]

/-- The entries as a Mathlib matrix. -/
def M22.toMatrix (a : M22) : Matrix (Fin 2) (Fin 2) ℝ := !![a.x00, a.x01; a.x10, a.x11]

/-- A matrix whose last row is that of an affine map. -/
def M44.Affine (a : M44) : Prop := a.x30 = 0 ∧ a.x31 = 0 ∧ a.x32 = 0 ∧ a.x33 = 1

/-- A matrix whose last row is that of an affine map. -/
def M33.Affine (a : M33) : Prop := a.x20 = 0 ∧ a.x21 = 0 ∧ a.x22 = 1

/-- The upper left block: the linear part of an affine map. -/
def M44.linear (a : M44) : Matrix (Fin 3) (Fin 3) ℝ :=
  !![a.x00, a.x01, a.x02; a.x10, a.x11, a.x12; a.x20, a.x21, a.x22]

/-- The upper left block: the linear part of an affine map. -/
def M33.linear (a : M33) : Matrix (Fin 2) (Fin 2) ℝ := !![a.x00, a.x01; a.x10, a.x11]

/-- A proper rotation about the origin: no translation, orthogonal, determinant one. -/
def M44.IsRotation (a : M44) : Prop :=
  a.Affine ∧ a.x03 = 0 ∧ a.x13 = 0 ∧ a.x23 = 0 ∧
    a.linear.transpose * a.linear = 1 ∧ a.linear.det = 1

/-- A proper rotation of the plane about the origin. -/
def M33.IsRotation (a : M33) : Prop :=
  a.Affine ∧ a.x02 = 0 ∧ a.x12 = 0 ∧ a.linear.transpose * a.linear = 1 ∧ a.linear.det = 1

/-- The map preserves all distances. -/
def M44.Isometry (a : M44) : Prop :=
  ∀ p q, V3.dist (a.mulPosition p) (a.mulPosition q) = V3.dist p q

/-- The map preserves all distances. -/
def M33.Isometry (a : M33) : Prop :=
  ∀ p q, V2.dist (a.mulPosition p) (a.mulPosition q) = V2.dist p q

end Sdf
