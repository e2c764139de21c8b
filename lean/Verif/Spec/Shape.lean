import Verif.Model.Sdf

/-!
Specification vocabulary for shapes, independent of how a shape is computed.
-/

namespace Sdf

/-- The distance estimate changes by at most the distance moved, so it never overestimates the distance to
the surface. -/
def Lip3 (f : V3 → ℝ) : Prop := ∀ p q, |f p - f q| ≤ V3.dist p q

/-- As `Lip3`, in the plane. -/
def Lip2 (f : V2 → ℝ) : Prop := ∀ p q, |f p - f q| ≤ V2.dist p q

/-- The reported bounding box contains every point strictly inside the shape. -/
def SDF3.Bounded (s : SDF3) : Prop := ∀ p, s.eval p < 0 → s.bounds.Contains p

/-- As `SDF3.Bounded`, in the plane. -/
def SDF2.Bounded (s : SDF2) : Prop := ∀ p, s.eval p < 0 → s.bounds.Contains p

/-- A box with positive extent along every axis. -/
def Box3.Solid (b : Box3) : Prop := b.lo.x < b.hi.x ∧ b.lo.y < b.hi.y ∧ b.lo.z < b.hi.z

/-- A box with positive extent along every axis. -/
def Box2.Solid (b : Box2) : Prop := b.lo.x < b.hi.x ∧ b.lo.y < b.hi.y

/-- The point is strictly inside the solid. -/
def SDF3.Inside (s : SDF3) (p : V3) : Prop := s.eval p < 0
/-- The point is strictly inside the figure. -/
def SDF2.Inside (s : SDF2) (p : V2) : Prop := s.eval p < 0
/-- The point is strictly outside the solid. -/
def SDF3.Outside (s : SDF3) (p : V3) : Prop := 0 < s.eval p
/-- The point is strictly outside the figure. -/
def SDF2.Outside (s : SDF2) (p : V2) : Prop := 0 < s.eval p

/-- `d` is the distance from `p` to the closed set `S`: it is attained, and no point of `S` is nearer. -/
def IsDist3 (S : V3 → Prop) (p : V3) (d : ℝ) : Prop := (∃ q, S q ∧ V3.dist p q = d) ∧ ∀ q, S q → d ≤ V3.dist p q

/-- As `IsDist3`, in the plane. -/
def IsDist2 (S : V2 → Prop) (p : V2) (d : ℝ) : Prop := (∃ q, S q ∧ V2.dist p q = d) ∧ ∀ q, S q → d ≤ V2.dist p q

/-- The shape reports exact signed distances: the magnitude of the value is the distance to the nearest surface
point (a point of value zero), and the value is 1-Lipschitz, so it cannot change sign away from the surface. -/
def SDF3.Exact (s : SDF3) : Prop := Lip3 s.eval ∧ ∀ p, IsDist3 (fun q => s.eval q = 0) p |s.eval p|

/-- As `SDF3.Exact`, in the plane. -/
def SDF2.Exact (s : SDF2) : Prop := Lip2 s.eval ∧ ∀ p, IsDist2 (fun q => s.eval q = 0) p |s.eval p|

/-- The reported bounding box contains the closed solid: every point that is not strictly outside. -/
def SDF3.BoundedClosed (s : SDF3) : Prop := ∀ p, s.eval p ≤ 0 → s.bounds.Contains p

/-- As `SDF3.BoundedClosed`, in the plane. -/
def SDF2.BoundedClosed (s : SDF2) : Prop := ∀ p, s.eval p ≤ 0 → s.bounds.Contains p

end Sdf
