import Verif.Spec.Trees
import Verif.Model.Thread

/-! The trees of constructors whose boxes are sound: a grading of the shapes by how much their distance estimate says
about the box. -/

namespace Sdf

/-- What is known of a shape besides that its box contains it: nothing (`inside`), that its values are at least the
distance beyond each of the faces of the box (`axes`), or that they are at least the distance beyond each plane that
supports the box (`all`). -/
inductive Grade where
  | inside
  | axes
  | all

open Grade in
/-- The shapes assembled from the constructors of the library with sharp booleans (differences and
intersections may be blended), with the conditions under which the
bounding box is sound.  The number `c` bounds how far the shape may still be grown: arrays, polygons and empty shapes
report at most `math.MaxFloat64` (polygons its square root).
Grades `axes` and `all` are needed for offsets, shells, rounded extrusions and lofts, which grow the solid by a value
that the box must follow. -/
inductive Boxed : Grade → ℝ → Shape → Prop
  | all_axes (c : ℝ) (x : Shape) : Boxed all c x → Boxed axes c x
  | axes_inside (c c' : ℝ) (x : Shape) : 0 ≤ c → Boxed axes c x → Boxed inside c' x
  -- planar figures
  | circle (c r : ℝ) (s : SDF2) : Must2.circle r = some s → Boxed all c (.fig s)
  | box2 (c : ℝ) (size : V2) (round : ℝ) : 0 ≤ round → round ≤ size.x / 2 → round ≤ size.y / 2 →
      Boxed all c (.fig (Must2.box size round))
  | line (c l round : ℝ) : 0 ≤ l → 0 ≤ round → Boxed all c (.fig (Must2.line l round))
  | polygon (c : ℝ) (v : List V2) (s : SDF2) : Polygon.Proper v → Must2.polygon v = some s →
      c ≤ Real.sqrt maxFloat64 → Boxed all c (.fig s)
  | affine2 (c : ℝ) (s : SDF2) (m : M33) : Boxed inside c (.fig s) → m.Affine → m.toMatrix.det ≠ 0 →
      Boxed inside c (.fig (s.transform m))
  | rigid2 (c : ℝ) (s : SDF2) (m : M33) : Boxed all c (.fig s) → m.Rigid → Boxed all c (.fig (s.transform m))
  | translate2 (g : Grade) (c : ℝ) (s : SDF2) (v : V2) : Boxed g c (.fig s) →
      Boxed g c (.fig (s.transform (M33.translate v)))
  | center2 (g : Grade) (c : ℝ) (s : SDF2) : Boxed g c (.fig s) → Boxed g c (.fig s.center)
  | scale2 (g : Grade) (c : ℝ) (s : SDF2) (k : ℝ) : Boxed g c (.fig s) → 0 < k → Boxed g (k * c) (.fig (s.scaleUniform k))
  | union2 (g : Grade) (c : ℝ) (s0 : SDF2) (l : List SDF2) : (∀ s ∈ s0 :: l, Boxed g c (.fig s)) →
      Boxed g c (.fig (SDF2.union s0 l))
  | difference2 (g : Grade) (c : ℝ) (s0 s1 : SDF2) : Boxed g c (.fig s0) → Boxed g c (.fig (SDF2.difference s0 s1))
  | intersect2 (g : Grade) (c : ℝ) (s0 s1 : SDF2) : Boxed g c (.fig s0) → Boxed g c (.fig (SDF2.intersect s0 s1))
  | blendDifference2 (f : ℝ → ℝ → ℝ) (depth : ℝ) (g : Grade) (c : ℝ) (s0 s1 : SDF2) : BlendMax f depth →
      Boxed g c (.fig s0) → Boxed g c (.fig (SDF2.differenceWith f s0 s1))
  | blendIntersect2 (f : ℝ → ℝ → ℝ) (depth : ℝ) (g : Grade) (c : ℝ) (s0 s1 : SDF2) : BlendMax f depth →
      Boxed g c (.fig s0) → Boxed g c (.fig (SDF2.intersectWith f s0 s1))
  | cut2 (g : Grade) (c : ℝ) (s : SDF2) (a v : V2) : Boxed g c (.fig s) → v ≠ ⟨0, 0⟩ → Boxed g c (.fig (s.cut a v))
  | grow2 (c : ℝ) (s : SDF2) (d : ℝ) : Boxed all c (.fig s) → 0 ≤ d → Boxed all (c - d) (.fig (s.offset d))
  | offset2 (c : ℝ) (s : SDF2) (d : ℝ) : Boxed axes c (.fig s) → 0 ≤ s.bounds.size.x + 2 * d →
      0 ≤ s.bounds.size.y + 2 * d → Boxed axes (c - d) (.fig (s.offset d))
  | array2 (g : Grade) (c : ℝ) (s : SDF2) (n0 n1 : ℤ) (step : V2) : Boxed g c (.fig s) → c ≤ maxFloat64 →
      Boxed g c (.fig (s.array n0 n1 step))
  | rotateUnion2 (c : ℝ) (s : SDF2) (n : ℤ) (m : M33) : Boxed all c (.fig s) → c ≤ maxFloat64 → m.Rigid →
      Boxed all c (.fig (s.rotateUnion n m))
  | affineUnion2 (c : ℝ) (s : SDF2) (n : ℤ) (m : M33) : Boxed inside c (.fig s) → m.Affine → m.toMatrix.det ≠ 0 →
      Boxed inside c (.fig (s.rotateUnion n m))
  | rotateCopy2 (g : Grade) (c : ℝ) (s t : SDF2) (n : ℤ) : Boxed g c (.fig s) → g ≠ axes → s.rotateCopy n = some t →
      Boxed g c (.fig t)
  | elongate2 (g : Grade) (c : ℝ) (s : SDF2) (h : V2) : Boxed g c (.fig s) → Boxed g c (.fig (s.elongate h))
  | slice (g : Grade) (c : ℝ) (s : SDF3) (a n : V3) : Boxed g c (.sol s) → g ≠ axes → n ≠ ⟨0, 0, 0⟩ →
      Boxed g c (.fig (SDF2.slice s a n))
  -- solids
  | sphere (c r : ℝ) (s : SDF3) : Must3.sphere r = some s → Boxed all c (.sol s)
  | box3 (c : ℝ) (size : V3) (round : ℝ) (s : SDF3) : Must3.box size round = some s → round ≤ size.x / 2 →
      round ≤ size.y / 2 → round ≤ size.z / 2 → Boxed all c (.sol s)
  | cylinder (c height radius round : ℝ) (s : SDF3) : Must3.cylinder height radius round = some s → Boxed all c (.sol s)
  | cone (c height r0 r1 round : ℝ) (s : SDF3) : Must3.cone height r0 r1 round = some s → 0 ≤ r0 → 0 ≤ r1 → Boxed all c (.sol s)
  | affine3 (c : ℝ) (s : SDF3) (m : M44) : Boxed inside c (.sol s) → m.Affine → m.toMatrix.det ≠ 0 →
      Boxed inside c (.sol (s.transform m))
  | rigid3 (c : ℝ) (s : SDF3) (m : M44) : Boxed all c (.sol s) → m.Rigid → Boxed all c (.sol (s.transform m))
  | translate3 (g : Grade) (c : ℝ) (s : SDF3) (v : V3) : Boxed g c (.sol s) →
      Boxed g c (.sol (s.transform (M44.translate v)))
  | scale3 (g : Grade) (c : ℝ) (s : SDF3) (k : ℝ) : Boxed g c (.sol s) → 0 < k → Boxed g (k * c) (.sol (s.scaleUniform k))
  | union3 (g : Grade) (c : ℝ) (s0 : SDF3) (l : List SDF3) : (∀ s ∈ s0 :: l, Boxed g c (.sol s)) →
      Boxed g c (.sol (SDF3.union s0 l))
  | difference3 (g : Grade) (c : ℝ) (s0 s1 : SDF3) : Boxed g c (.sol s0) → Boxed g c (.sol (SDF3.difference s0 s1))
  | intersect3 (g : Grade) (c : ℝ) (s0 s1 : SDF3) : Boxed g c (.sol s0) → Boxed g c (.sol (SDF3.intersect s0 s1))
  | blendDifference3 (f : ℝ → ℝ → ℝ) (depth : ℝ) (g : Grade) (c : ℝ) (s0 s1 : SDF3) : BlendMax f depth →
      Boxed g c (.sol s0) → Boxed g c (.sol (SDF3.differenceWith f s0 s1))
  | blendIntersect3 (f : ℝ → ℝ → ℝ) (depth : ℝ) (g : Grade) (c : ℝ) (s0 s1 : SDF3) : BlendMax f depth →
      Boxed g c (.sol s0) → Boxed g c (.sol (SDF3.intersectWith f s0 s1))
  | cut3 (g : Grade) (c : ℝ) (s : SDF3) (a n : V3) : Boxed g c (.sol s) → n ≠ ⟨0, 0, 0⟩ →
      Boxed g c (.sol (s.cut a n))
  | grow3 (c : ℝ) (s : SDF3) (d : ℝ) : Boxed all c (.sol s) → 0 ≤ d → Boxed all (c - d) (.sol (s.offset d))
  | offset3 (c : ℝ) (s : SDF3) (d : ℝ) : Boxed axes c (.sol s) → 0 ≤ s.bounds.size.x + 2 * d →
      0 ≤ s.bounds.size.y + 2 * d → 0 ≤ s.bounds.size.z + 2 * d → Boxed axes (c - d) (.sol (s.offset d))
  | shell (g : Grade) (c : ℝ) (s : SDF3) (t : ℝ) : Boxed g c (.sol s) → g ≠ inside → 0 < t →
      Boxed g (c - t / 2) (.sol (s.shell t))
  | array3 (g : Grade) (c : ℝ) (s : SDF3) (n0 n1 n2 : ℤ) (step : V3) : Boxed g c (.sol s) → c ≤ maxFloat64 →
      Boxed g c (.sol (s.array n0 n1 n2 step))
  | rotateUnion3 (c : ℝ) (s : SDF3) (n : ℤ) (m : M44) : Boxed all c (.sol s) → c ≤ maxFloat64 → m.Rigid →
      Boxed all c (.sol (s.rotateUnion n m))
  | affineUnion3 (c : ℝ) (s : SDF3) (n : ℤ) (m : M44) : Boxed inside c (.sol s) → m.Affine → m.toMatrix.det ≠ 0 →
      Boxed inside c (.sol (s.rotateUnion n m))
  | rotateCopy3 (g : Grade) (c : ℝ) (s : SDF3) (n : ℤ) : Boxed g c (.sol s) → c ≤ maxFloat64 → g ≠ axes →
      Boxed g c (.sol (s.rotateCopy n))
  | elongate3 (g : Grade) (c : ℝ) (s : SDF3) (h : V3) : Boxed g c (.sol s) → Boxed g c (.sol (s.elongate h))
  | extrude (g : Grade) (c : ℝ) (s : SDF2) (height : ℝ) : Boxed g c (.fig s) → g ≠ all → 0 ≤ height →
      Boxed g c (.sol (SDF3.extrude s height))
  | scaleExtrude (c : ℝ) (s : SDF2) (height : ℝ) (scale : V2) : Boxed inside c (.fig s) → 0 < height →
      0 < scale.x → 0 < scale.y → Boxed inside c (.sol (SDF3.scaleExtrude s height scale))
  | twistExtrude (c : ℝ) (s : SDF2) (height twist : ℝ) : Boxed inside c (.fig s) → 0 < height →
      |s.bounds.lo.x| ≤ s.bounds.hi.x → |s.bounds.lo.y| ≤ s.bounds.hi.y → Boxed inside c (.sol (SDF3.twistExtrude s height twist))
  | extrudeRounded (g : Grade) (c : ℝ) (s : SDF2) (height round : ℝ) : Boxed g c (.fig s) → g ≠ inside → 0 < round →
      2 * round ≤ height → Boxed g (c - round) (.sol (SDF3.extrudeRounded s height round))
  | loft (g : Grade) (c : ℝ) (s0 s1 : SDF2) (height round : ℝ) : Boxed g c (.fig s0) → Boxed g c (.fig s1) →
      g ≠ inside → 0 ≤ round → 2 * round < height → Boxed g (c - round) (.sol (SDF3.loft s0 s1 height round))
  | loftSharp (c : ℝ) (s0 s1 : SDF2) (height : ℝ) : Boxed inside c (.fig s0) → Boxed inside c (.fig s1) →
      Boxed inside c (.sol (SDF3.loft s0 s1 height 0))
  | revolve (c : ℝ) (s : SDF2) (theta : ℝ) : Boxed inside c (.fig s) → theta ≤ 2 * Real.pi →
      Boxed inside c (.sol (SDF3.revolve s theta))
  | revolveFull (g : Grade) (c : ℝ) (s : SDF2) (theta : ℝ) : Boxed g c (.fig s) → |theta - 2 * Real.pi| < tolerance →
      Boxed g c (.sol (SDF3.revolve s theta))
  | screw (c length : ℝ) (t : Thread.Threader) (f : SDF2) (s : SDF3) : Boxed inside c (.fig f) → t.thread = .ok ⟨some f, false⟩ →
      0 ≤ t.params.taper → t.params.taper < Real.pi / 2 → Thread.screw length (some t) = .ok ⟨some s, false⟩ →
      Boxed inside c (.sol s)

end Sdf
