import Verif.Model.Transform
import Verif.Model.MarchingCubes

/-!
Triangles in the plane and in space: /repo/helpers/sdfexp/spatial2.go and /repo/helpers/sdfexp/spatial3.go.
-/

namespace Sdf

/-- /repo/helpers/sdfexp/spatial3.go:93-116 `canalisTransform`. -/
noncomputable def canalisTransform (t : Tri) : T3 :=
  let u2 := V3.sub t.b t.a
  let u3 := V3.sub t.c t.a
  let xc := V3.unit u2
  let yc := V3.unit (V3.sub u3 (V3.scale (V3.dot xc u3) xc))
  let zc := V3.cross xc yc
  let T := (T3.ofSlice [
    xc.x, xc.y, xc.z, 0,
    yc.x, yc.y, yc.z, 0,
    zc.x, zc.y, zc.z, 0,
    0, 0, 0, 1]).getD T3.zeroTransform
  let t0T := T.apply t.a
  T.translate (V3.scale (-1) t0T)

/-- /repo/helpers/sdfexp/spatial2.go:13-23 `triangleFeature`. -/
inductive Feature
  | v0 | v1 | v2 | e0 | e1 | e2 | face
deriving DecidableEq

/-- The feature with a given number. -/
def Feature.num : ℕ → Feature
  | 0 => .v0
  | 1 => .v1
  | 2 => .v2
  | 3 => .e0
  | 4 => .e1
  | 5 => .e2
  | _ => .face

/-- /repo/helpers/sdfexp/spatial2.go:56-58 `d2Sign`. -/
def d2Sign (p1 p2 p3 : V2) : ℝ := (p1.x - p3.x) * (p2.y - p3.y) - (p2.x - p3.x) * (p1.y - p3.y)

/-- /repo/helpers/sdfexp/spatial2.go:45-54 `inTriangle`. -/
def inTriangle (pt a b c : V2) : Prop :=
  let d1 := d2Sign pt a b
  let d2 := d2Sign pt b c
  let d3 := d2Sign pt c a
  ¬ ((d1 < 0 ∨ d2 < 0 ∨ d3 < 0) ∧ (d1 > 0 ∨ d2 > 0 ∨ d3 > 0))

/-- /repo/helpers/sdfexp/spatial2.go:90-98 `edgeEquation`. -/
def edgeEquation (p l0 l1 : V2) : ℝ :=
  let dxy := V2.sub l1 l0
  (p.x - l0.x) * dxy.y - (p.y - l0.y) * dxy.x

/-- /repo/helpers/sdfexp/spatial2.go:80-88 `distToLineInfinite`. -/
noncomputable def distToLineInfinite (p p1 p2 : V2) : ℝ :=
  |(p2.x - p1.x) * (p1.y - p.y) - (p1.x - p.x) * (p2.y - p1.y)| / V2.norm ⟨p2.x - p1.x, p2.y - p1.y⟩

open Classical in
/-- /repo/helpers/sdfexp/spatial2.go:60-78 `distToLine`. -/
noncomputable def distToLine (p l0 l1 : V2) : V2 × ℕ :=
  let lineDir := V2.sub l1 l0
  let perpendicular : V2 := ⟨-lineDir.y, lineDir.x⟩
  if edgeEquation p l1 (V2.add l1 perpendicular) > 0 then (V2.sub p l1, 0)
  else if edgeEquation p l0 (V2.add l0 perpendicular) < 0 then (V2.sub p l0, 1)
  else (V2.scale (-(distToLineInfinite p l0 l1)) (V2.unit perpendicular), 2)

/-- State of the loop of `closestOnTriangle2`: least squared distance, point and feature so far. -/
structure Nearest2 where
  minDist : ℝ
  point : V2
  feature : Feature

open Classical in
/-- /repo/helpers/sdfexp/spatial2.go:28-41, one round of the loop of `closestOnTriangle2`: edge `j` from `l0` to `l1`. -/
noncomputable def Nearest2.edge (st : Nearest2) (p : V2) (j : ℕ) (l0 l1 : V2) : Nearest2 :=
  let (distance, gotFeat) := distToLine p l0 l1
  let d2 := V2.norm2 distance
  if d2 < st.minDist then
    ⟨d2, V2.sub p distance, if gotFeat < 2 then Feature.num ((j + gotFeat) % 3) else Feature.num (3 + j % 3)⟩
  else st

open Classical in
/-- /repo/helpers/sdfexp/spatial2.go:23-43 `closestOnTriangle2`. -/
noncomputable def closestOnTriangle2 (p a b c : V2) : V2 × Feature :=
  if inTriangle p a b c then (p, .face)
  else
    let st : Nearest2 := ⟨maxFloat64, ⟨0, 0⟩, .v0⟩
    let st := ((st.edge p 0 a b).edge p 1 b c).edge p 2 c a
    (st.point, st.feature)

/-- The mapped triangle and point of `meshTriangle.Distance`, /repo/helpers/sdfexp/spatial3.go:41-59, for a triangle `t` and a point
`p`: the closest point, the feature and the squared distance.  Simplification: the corners are the ones the transform was made
from; the code takes them from the list of merged vertices, which can differ by the merging tolerance. -/
noncomputable def meshTriangleDistance (t : Tri) (p : V3) : V3 × Feature × ℝ :=
  let T := canalisTransform t
  let InvT := T.inv
  let pxy := (T.apply p).xy
  let r := closestOnTriangle2 pxy (T.apply t.a).xy (T.apply t.b).xy (T.apply t.c).xy
  let closest := InvT.apply ⟨r.1.x, r.1.y, 0⟩
  (closest, r.2, V3.norm2 (V3.sub p closest))

end Sdf
