import Verif.Model.Combine2
import Verif.Model.Combine3
import Verif.Model.Forms
import Verif.Model.Polygon
import Verif.Spec.Shape
import Verif.Spec.Blend
import Verif.Spec.Matrix
import Verif.Spec.Polygon

/-! Shapes assembled from the constructors of the library, as trees of unbounded size. -/

namespace Sdf

/-- Either kind of shape. -/
inductive Shape where
  | fig (s : SDF2)
  | sol (s : SDF3)

/-- Outside the box the value is at least the distance to the box: every point `p` outside is at distance at
most `eval p` from some point of the box. -/
def SDF2.AtLeastBoxDistance (s : SDF2) : Prop :=
  ∀ p, s.bounds.Contains p ∨ ∃ q, s.bounds.Contains q ∧ V2.dist p q ≤ s.eval p

/-- Some point of the box belongs to the figure (border included). -/
def SDF2.NonEmpty (s : SDF2) : Prop := ∃ q, s.bounds.Contains q ∧ s.eval q ≤ 0

/-- A distance-preserving placement. -/
def M44.Rigid (m : M44) : Prop := m.Affine ∧ m.toMatrix.det ≠ 0 ∧ m.Isometry
/-- A distance-preserving placement of the plane. -/
def M33.Rigid (m : M33) : Prop := m.Affine ∧ m.toMatrix.det ≠ 0 ∧ m.Isometry

/-- The shapes assembled from primitives with rigid transforms, uniform scaling, booleans, cuts, offsets, shells,
arrays, elongation, straight and rounded extrusion, revolution and slicing; booleans are sharp or blended.  The operands of a planar union must not be
empty and must be at least as far away as their boxes, since `Union2D` skips operands by their boxes. -/
inductive Assembled : Shape → Prop
  | circle (r : ℝ) (s : SDF2) : Must2.circle r = some s → Assembled (.fig s)
  | box2 (size : V2) (round : ℝ) : Assembled (.fig (Must2.box size round))
  | line (l round : ℝ) : Assembled (.fig (Must2.line l round))
  | polygon (v : List V2) (s : SDF2) : Polygon.Proper v → Must2.polygon v = some s → Assembled (.fig s)
  | move2 (s : SDF2) (m : M33) : Assembled (.fig s) → m.Rigid → Assembled (.fig (s.transform m))
  | scale2 (s : SDF2) (k : ℝ) : Assembled (.fig s) → 0 < k → Assembled (.fig (s.scaleUniform k))
  | center2 (s : SDF2) : Assembled (.fig s) → Assembled (.fig s.center)
  | union2 (s0 : SDF2) (l : List SDF2) : (∀ s ∈ s0 :: l, Assembled (.fig s)) →
      (∀ s ∈ s0 :: l, s.AtLeastBoxDistance ∧ s.NonEmpty) → Assembled (.fig (SDF2.union s0 l))
  | difference2 (s0 s1 : SDF2) : Assembled (.fig s0) → Assembled (.fig s1) → Assembled (.fig (SDF2.difference s0 s1))
  | intersect2 (s0 s1 : SDF2) : Assembled (.fig s0) → Assembled (.fig s1) → Assembled (.fig (SDF2.intersect s0 s1))
  | cut2 (s : SDF2) (a v : V2) : Assembled (.fig s) → v ≠ ⟨0, 0⟩ → Assembled (.fig (s.cut a v))
  | offset2 (s : SDF2) (d : ℝ) : Assembled (.fig s) → Assembled (.fig (s.offset d))
  | array2 (s : SDF2) (n0 n1 : ℤ) (step : V2) : Assembled (.fig s) → Assembled (.fig (s.array n0 n1 step))
  | rotateUnion2 (s : SDF2) (n : ℤ) (m : M33) : Assembled (.fig s) → m.Rigid → Assembled (.fig (s.rotateUnion n m))
  | elongate2 (s : SDF2) (h : V2) : Assembled (.fig s) → Assembled (.fig (s.elongate h))
  | slice (s : SDF3) (a n : V3) : Assembled (.sol s) → n ≠ ⟨0, 0, 0⟩ → Assembled (.fig (SDF2.slice s a n))
  | sphere (r : ℝ) (s : SDF3) : Must3.sphere r = some s → Assembled (.sol s)
  | box3 (size : V3) (round : ℝ) (s : SDF3) : Must3.box size round = some s → Assembled (.sol s)
  | cylinder (height radius round : ℝ) (s : SDF3) : Must3.cylinder height radius round = some s → Assembled (.sol s)
  | cone (height r0 r1 round : ℝ) (s : SDF3) : Must3.cone height r0 r1 round = some s → Assembled (.sol s)
  | move3 (s : SDF3) (m : M44) : Assembled (.sol s) → m.Rigid → Assembled (.sol (s.transform m))
  | scale3 (s : SDF3) (k : ℝ) : Assembled (.sol s) → 0 < k → Assembled (.sol (s.scaleUniform k))
  | union3 (s0 : SDF3) (l : List SDF3) : (∀ s ∈ s0 :: l, Assembled (.sol s)) → Assembled (.sol (SDF3.union s0 l))
  | difference3 (s0 s1 : SDF3) : Assembled (.sol s0) → Assembled (.sol s1) → Assembled (.sol (SDF3.difference s0 s1))
  | intersect3 (s0 s1 : SDF3) : Assembled (.sol s0) → Assembled (.sol s1) → Assembled (.sol (SDF3.intersect s0 s1))
  | cut3 (s : SDF3) (a n : V3) : Assembled (.sol s) → n ≠ ⟨0, 0, 0⟩ → Assembled (.sol (s.cut a n))
  | offset3 (s : SDF3) (d : ℝ) : Assembled (.sol s) → Assembled (.sol (s.offset d))
  | shell (s : SDF3) (t : ℝ) : Assembled (.sol s) → Assembled (.sol (s.shell t))
  | array3 (s : SDF3) (n0 n1 n2 : ℤ) (step : V3) : Assembled (.sol s) → Assembled (.sol (s.array n0 n1 n2 step))
  | rotateUnion3 (s : SDF3) (n : ℤ) (m : M44) : Assembled (.sol s) → m.Rigid → Assembled (.sol (s.rotateUnion n m))
  | elongate3 (s : SDF3) (h : V3) : Assembled (.sol s) → Assembled (.sol (s.elongate h))
  | extrude (s : SDF2) (height : ℝ) : Assembled (.fig s) → Assembled (.sol (SDF3.extrude s height))
  | extrudeRounded (s : SDF2) (height round : ℝ) : Assembled (.fig s) → Assembled (.sol (SDF3.extrudeRounded s height round))
  | revolve (s : SDF2) (theta : ℝ) : Assembled (.fig s) → Assembled (.sol (SDF3.revolve s theta))
  -- smooth booleans: what `SetMin` and `SetMax` make of the sharp ones
  | blendUnion3 (f : ℝ → ℝ → ℝ) (depth : ℝ) (s0 : SDF3) (l : List SDF3) : Blend f depth → (∀ s ∈ s0 :: l, Assembled (.sol s)) →
      Assembled (.sol (SDF3.unionWith f s0 l))
  | blendArray3 (f : ℝ → ℝ → ℝ) (depth : ℝ) (s : SDF3) (n0 n1 n2 : ℤ) (step : V3) : Blend f depth → Assembled (.sol s) →
      Assembled (.sol (s.arrayWith f n0 n1 n2 step))
  | blendArray2 (f : ℝ → ℝ → ℝ) (depth : ℝ) (s : SDF2) (n0 n1 : ℤ) (step : V2) : Blend f depth → Assembled (.fig s) →
      Assembled (.fig (s.arrayWith f n0 n1 step))
  | blendRotate3 (f : ℝ → ℝ → ℝ) (depth : ℝ) (s : SDF3) (n : ℤ) (m : M44) : Blend f depth → Assembled (.sol s) → m.Rigid →
      Assembled (.sol (s.rotateUnionWith f n m))
  | blendRotate2 (f : ℝ → ℝ → ℝ) (depth : ℝ) (s : SDF2) (n : ℤ) (m : M33) : Blend f depth → Assembled (.fig s) → m.Rigid →
      Assembled (.fig (s.rotateUnionWith f n m))
  | blendDifference3 (g : ℝ → ℝ → ℝ) (depth : ℝ) (s0 s1 : SDF3) : BlendMax g depth → Assembled (.sol s0) → Assembled (.sol s1) →
      Assembled (.sol (SDF3.differenceWith g s0 s1))
  | blendDifference2 (g : ℝ → ℝ → ℝ) (depth : ℝ) (s0 s1 : SDF2) : BlendMax g depth → Assembled (.fig s0) → Assembled (.fig s1) →
      Assembled (.fig (SDF2.differenceWith g s0 s1))
  | blendIntersect3 (g : ℝ → ℝ → ℝ) (depth : ℝ) (s0 s1 : SDF3) : BlendMax g depth → Assembled (.sol s0) → Assembled (.sol s1) →
      Assembled (.sol (SDF3.intersectWith g s0 s1))
  | blendIntersect2 (g : ℝ → ℝ → ℝ) (depth : ℝ) (s0 s1 : SDF2) : BlendMax g depth → Assembled (.fig s0) → Assembled (.fig s1) →
      Assembled (.fig (SDF2.intersectWith g s0 s1))

end Sdf
