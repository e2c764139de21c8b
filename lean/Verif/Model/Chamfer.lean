import Verif.Model.PolygonBuilder
import Verif.Model.Forms
import Verif.Model.Combine3

/-! The remaining constructors of /repo/form2/poly.go and /repo/form3/basic.go. -/

namespace Sdf

namespace Form2
/-- /repo/form2/poly.go:13-23 `Polygon`; the deferred `recover` turns the panic into an error. -/
noncomputable def polygon (vertex : List V2) : Option (Returned SDF2) := some (recovered (Must2.polygon vertex))
/-- /repo/form2/poly.go:31-41 `Nagon`: `must2.Nagon` does not panic for `n < 3`, it returns nil. -/
noncomputable def nagon (n : ℤ) (radius : ℝ) : Option (Returned (List V2)) := some ⟨Must2.nagon n radius, false⟩
end Form2

namespace Must3
/-- /repo/form3/must3/cylinders.go:234-238 (and /repo/form3/basic.go:85-89): the half profile that is revolved. -/
noncomputable def chamferProfile (l r kb kt : ℝ) : Must2.Builder :=
  (((Must2.Builder.new.add (.plain ⟨0, -l⟩)).add ((Must2.PV.plain ⟨r, -l⟩).chamfer (r * kb))).add
    ((Must2.PV.plain ⟨r, l⟩).chamfer (r * kt))).add (.plain ⟨0, l⟩)

/-- /repo/form3/must3/cylinders.go:230-242 `ChamferedCylinder`; the shape is `none` for nil, whose `Bounds` panics. -/
noncomputable def chamferedCylinder (fuel : ℕ) (s : Option SDF3) (kb kt : ℝ) : Must2.Outcome SDF3 :=
  match s with
  | none => .panic
  | some s =>
    let l := s.bounds.hi.z
    let r := s.bounds.hi.x
    match (chamferProfile l r kb kt).vertices fuel with
    | .panic => .panic
    | .outOfFuel => .outOfFuel
    | .ok (v, _) =>
      match Must2.polygon v with
      | none => .panic
      | some s0 => .ok (SDF3.intersect s (SDF3.revolve s0 (2 * Real.pi)))
end Must3

namespace Form3
/-- /repo/form3/basic.go:81-93 `ChamferedCylinder`: there is no `recover`, and the error is always nil. -/
noncomputable def chamferedCylinder (fuel : ℕ) (s : Option SDF3) (kb kt : ℝ) : Must2.Outcome (Returned SDF3) :=
  match Must3.chamferedCylinder fuel s kb kt with
  | .panic => .panic
  | .outOfFuel => .outOfFuel
  | .ok c => .ok ⟨some c, false⟩
end Form3

end Sdf
