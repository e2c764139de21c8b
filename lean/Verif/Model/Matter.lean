import Verif.Model.Combine3

/-! Material compensation: /repo/helpers/matter/3dprint.go. -/

namespace Sdf

/-- /repo/helpers/matter/3dprint.go:20-27 `Viscoelastic`. -/
structure Viscoelastic where
  shrink : ℝ
  pullShrink : ℝ

/-- /repo/helpers/matter/3dprint.go:12 `PLA`. -/
noncomputable def pla : Viscoelastic := ⟨0.3e-2, 0.45⟩

/-- /repo/helpers/matter/3dprint.go:30-33 `Viscoelastic.Scale`. -/
noncomputable def Viscoelastic.scale (m : Viscoelastic) (s : SDF3) : SDF3 := s.scaleUniform (1 + m.shrink)

open Classical in
/-- /repo/helpers/matter/3dprint.go:35-40 `Viscoelastic.InternalDimScale`; `none` is a panic. -/
noncomputable def Viscoelastic.internalDimScale (m : Viscoelastic) (real : ℝ) : Option ℝ :=
  if real ≤ 0 then none else some (real * (m.shrink + 1) + m.pullShrink)

/-- /repo/helpers/matter/3dprint.go:17 `Ideal.Scale`. -/
def idealScale (s : SDF3) : SDF3 := s

/-- /repo/helpers/matter/3dprint.go:18 `Ideal.InternalDimScale`. -/
def idealInternalDimScale (real : ℝ) : ℝ := real

end Sdf
