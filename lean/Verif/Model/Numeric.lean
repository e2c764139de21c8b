import Verif.Model.Transform
import Verif.Model.Sdf
import Verif.Model.Utils
import Verif.Model.Octree

/-!
Numerical helpers: normals by differences, comparisons within a tolerance, polar coordinates, integer vectors.
-/

namespace Sdf

/-- /repo/utils.go:306-312 `normal3`.  Where all differences vanish Go returns NaNs; theorems exclude this. -/
noncomputable def normal3 (s : SDF3) (p : V3) (eps : ℝ) : V3 :=
  V3.unit ⟨s.eval (V3.add p ⟨eps, 0, 0⟩) - s.eval (V3.add p ⟨-eps, 0, 0⟩),
    s.eval (V3.add p ⟨0, eps, 0⟩) - s.eval (V3.add p ⟨0, -eps, 0⟩), s.eval (V3.add p ⟨0, 0, eps⟩) - s.eval (V3.add p ⟨0, 0, -eps⟩)⟩

/-- /repo/utils.go:316-321 `normal2`. -/
noncomputable def normal2 (s : SDF2) (p : V2) (eps : ℝ) : V2 :=
  V2.unit ⟨s.eval (V2.add p ⟨eps, 0⟩) - s.eval (V2.add p ⟨-eps, 0⟩), s.eval (V2.add p ⟨0, eps⟩) - s.eval (V2.add p ⟨0, -eps⟩)⟩

/-- /repo/utils.go:329-333 `mulVertices2`: the set afterwards. -/
def mulVertices2 (v : List V2) (a : M33) : List V2 := v.map a.mulPosition

/-- /repo/utils.go:336-340 `mulVertices3`: the set afterwards. -/
def mulVertices3 (v : List V3) (a : M44) : List V3 := v.map a.mulPosition

/-- /repo/matrix.go:245-262 `equals` of 4x4 matrices. -/
def M44.equals (a b : M44) (tolerance : ℝ) : Prop :=
  |a.x00 - b.x00| < tolerance ∧ |a.x01 - b.x01| < tolerance ∧ |a.x02 - b.x02| < tolerance ∧ |a.x03 - b.x03| < tolerance ∧
  |a.x10 - b.x10| < tolerance ∧ |a.x11 - b.x11| < tolerance ∧ |a.x12 - b.x12| < tolerance ∧ |a.x13 - b.x13| < tolerance ∧
  |a.x20 - b.x20| < tolerance ∧ |a.x21 - b.x21| < tolerance ∧ |a.x22 - b.x22| < tolerance ∧ |a.x23 - b.x23| < tolerance ∧
  |a.x30 - b.x30| < tolerance ∧ |a.x31 - b.x31| < tolerance ∧ |a.x32 - b.x32| < tolerance ∧ |a.x33 - b.x33| < tolerance

/-- /repo/matrix.go:265-275 `equals` of 3x3 matrices. -/
def M33.equals (a b : M33) (tolerance : ℝ) : Prop :=
  |a.x00 - b.x00| < tolerance ∧ |a.x01 - b.x01| < tolerance ∧ |a.x02 - b.x02| < tolerance ∧
  |a.x10 - b.x10| < tolerance ∧ |a.x11 - b.x11| < tolerance ∧ |a.x12 - b.x12| < tolerance ∧
  |a.x20 - b.x20| < tolerance ∧ |a.x21 - b.x21| < tolerance ∧ |a.x22 - b.x22| < tolerance

/-- /repo/matrix.go:278-283 `equals` of 2x2 matrices. -/
def M22.equals (a b : M22) (tolerance : ℝ) : Prop :=
  |a.x00 - b.x00| < tolerance ∧ |a.x01 - b.x01| < tolerance ∧ |a.x10 - b.x10| < tolerance ∧ |a.x11 - b.x11| < tolerance

/-- /repo/internal/d3/transform.go:236-253 `equals`. -/
def T3.equals (a b : T3) (tolerance : ℝ) : Prop :=
  |a.d00 - b.d00| < tolerance ∧ |a.x01 - b.x01| < tolerance ∧ |a.x02 - b.x02| < tolerance ∧ |a.x03 - b.x03| < tolerance ∧
  |a.x10 - b.x10| < tolerance ∧ |a.d11 - b.d11| < tolerance ∧ |a.x12 - b.x12| < tolerance ∧ |a.x13 - b.x13| < tolerance ∧
  |a.x20 - b.x20| < tolerance ∧ |a.x21 - b.x21| < tolerance ∧ |a.d22 - b.d22| < tolerance ∧ |a.x23 - b.x23| < tolerance ∧
  |a.x30 - b.x30| < tolerance ∧ |a.x31 - b.x31| < tolerance ∧ |a.x32 - b.x32| < tolerance ∧ |a.d33 - b.d33| < tolerance

/-- /repo/internal/d2/box.go:20-22 `Equals`. -/
def Box2.equals (a b : Box2) (tol : ℝ) : Prop := V2.EqualWithin a.lo b.lo tol ∧ V2.EqualWithin a.hi b.hi tol

/-- /repo/internal/d3/box.go:28-30 `Equals`. -/
def Box3.equals (a b : Box3) (tol : ℝ) : Prop := V3.EqualWithin a.lo b.lo tol ∧ V3.EqualWithin a.hi b.hi tol

/-- /repo/internal/d2/vector.go:130-132 `CartesianToPolar`: radius and angle. -/
noncomputable def V2.toPolar (a : V2) : ℝ × ℝ := (V2.norm a, atan2 a.y a.x)

/-- /repo/internal/d2/transform.go:44-50 `Scale`. -/
def T2.scaleBy (t : T2) (k : ℝ) : T2 :=
  ⟨t.x00 * k, t.x01 * k, t.x02 * k, t.x10 * k, t.x11 * k, t.x12 * k, t.x20 * k, t.x21 * k, t.x22 * k⟩

/-- /repo/internal/d2/transform.go:67-79 `Add`. -/
def T2.add (a b : T2) : T2 :=
  ⟨a.x00 + b.x00, a.x01 + b.x01, a.x02 + b.x02, a.x10 + b.x10, a.x11 + b.x11, a.x12 + b.x12, a.x20 + b.x20, a.x21 + b.x21, a.x22 + b.x22⟩

end Sdf
