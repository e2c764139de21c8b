import Verif.Model.Box

/-! The shape interfaces of /repo/sdf2.go and /repo/sdf3.go. -/

namespace Sdf

/-- /repo/sdf3.go:16-24 `SDF3` interface: `Evaluate` and `Bounds`. -/
structure SDF3 where
  eval : V3 → ℝ
  bounds : Box3

/-- /repo/sdf2.go:16-24 `SDF2` interface: `Evaluate` and `Bounds`. -/
structure SDF2 where
  eval : V2 → ℝ
  bounds : Box2

end Sdf
