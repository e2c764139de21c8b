import Verif.Model.MarchingCubes
import Verif.Spec.Float

/-!
Marching cubes on one cell, /repo/render/marchingcubes.go:9-84, with the arithmetic of a machine instead of exact arithmetic.
The comparisons and tables are those of `Verif.Model.MarchingCubes`.  A compiler that fuses `a + t*b` into one operation
(which Go allows on some processors) is not represented.
-/

namespace Sdf.MC

open Fp

/-- /repo/render/marchingcubes.go:58-84 `mcInterpolate`. -/
noncomputable def interpolateIn (A : Arith) (p1 p2 : V3) (v1 v2 x : ℝ) : V3 :=
  open Classical in
  let closeToV1 := |A.sub x v1| < epsilon
  let closeToV2 := |A.sub x v2| < epsilon
  if closeToV1 ∧ ¬ closeToV2 then p1
  else if closeToV2 ∧ ¬ closeToV1 then p2
  else
    let t := if closeToV1 ∧ closeToV2 then 0.5 else A.div (A.sub x v1) (A.sub v2 v1)
    ⟨A.add p1.x (A.mul t (A.sub p2.x p1.x)), A.add p1.y (A.mul t (A.sub p2.y p1.y)), A.add p1.z (A.mul t (A.sub p2.z p1.z))⟩

/-- /repo/render/marchingcubes.go:30-39: the interpolated points on the flagged edges. -/
noncomputable def pointsIn (A : Arith) (p : Fin 8 → V3) (v : Fin 8 → ℝ) (x : ℝ) : Fin 12 → V3 := fun i =>
  let flags := edgeTable.getD (index v x) 0
  if flags &&& (1 <<< (i : Nat)) ≠ 0 then
    let a := (pairTable i).1
    let b := (pairTable i).2
    interpolateIn A (p a) (p b) (v a) (v b) x
  else ⟨0, 0, 0⟩

/-- /repo/render/marchingcubes.go:41-48: the triangles of the row, before the degeneracy filter. -/
noncomputable def rawTrianglesIn (A : Arith) (p : Fin 8 → V3) (v : Fin 8 → ℝ) (x : ℝ) : List Tri :=
  open Classical in
  if edgeTable.getD (index v x) 0 = 0 then []
  else
    let pts := pointsIn A p v x
    (triples (triangleTable.getD (index v x) [])).map fun t => ⟨pts t.2.2, pts t.2.1, pts t.1⟩

/-- /repo/render/marchingcubes.go:15-55 `mcToTriangles`, into a buffer of sufficient length. -/
noncomputable def trianglesIn (A : Arith) (deg : Tri → Bool) (p : Fin 8 → V3) (v : Fin 8 → ℝ) (x : ℝ) : List Tri :=
  (rawTrianglesIn A p v x).filter fun t => !deg t

end Sdf.MC
