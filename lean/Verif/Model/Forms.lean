import Verif.Model.Sdf
import Verif.Model.Utils

/-!
The primitive shapes of /repo/form2/must2/basic.go and /repo/form3/must3/cylinders.go, and the error-returning
wrappers of /repo/form2/basic.go and /repo/form3/basic.go.  `none` is a panic.
-/

namespace Sdf

open Classical in
/-- /repo/form2/must2/errors.go:21-32 `sdfBox2d`, identical to /repo/form3/must3/errors.go:8-19 and
/repo/sdf2.go:41-52. -/
noncomputable def sdfBox2d (p s : V2) : ℝ :=
  let p := V2.absElem p
  let d := V2.sub p s
  let k := s.y - s.x
  if d.x > 0 ∧ d.y > 0 then V2.norm d
  else if p.y - p.x > k then d.y
  else d.x

open Classical in
/-- /repo/form3/must3/cylinders.go:203-227 `sdfBox3d`, identical to /repo/utils.go:395-419; `math.Hypot(x, y)` is the
norm of `(x, y)`. -/
noncomputable def sdfBox3d (p s : V3) : ℝ :=
  let d := V3.sub (V3.absElem p) s
  if d.x > 0 ∧ d.y > 0 ∧ d.z > 0 then V3.norm d
  else if d.x > 0 ∧ d.y > 0 then V2.norm ⟨d.x, d.y⟩
  else if d.x > 0 ∧ d.z > 0 then V2.norm ⟨d.x, d.z⟩
  else if d.y > 0 ∧ d.z > 0 then V2.norm ⟨d.y, d.z⟩
  else if d.x > 0 then d.x
  else if d.y > 0 then d.y
  else if d.z > 0 then d.z
  else V3.maxComp d

namespace Must2

open Classical in
/-- /repo/form2/must2/basic.go:17-30 `Circle` and its `Evaluate`. -/
noncomputable def circle (radius : ℝ) : Option SDF2 :=
  if radius < 0 then none
  else
    let d : V2 := ⟨radius, radius⟩
    some ⟨fun p => V2.norm p - radius, ⟨V2.scale (-1) d, d⟩⟩

/-- /repo/form2/must2/basic.go:48-60 `Box` and its `Evaluate`; there are no checks. -/
noncomputable def box (size : V2) (round : ℝ) : SDF2 :=
  let size := V2.scale 0.5 size
  let ssize := V2.sub size (V2.elem round)
  ⟨fun p => sdfBox2d p ssize - round, ⟨V2.scale (-1) size, size⟩⟩

open Classical in
/-- /repo/form2/must2/basic.go:77-92 `Line` and its `Evaluate`; there are no checks. -/
noncomputable def line (l round : ℝ) : SDF2 :=
  let sl := l / 2
  ⟨fun p =>
    let p := V2.absElem p
    if p.x ≤ sl then p.y - round
    else V2.norm (V2.sub p ⟨sl, 0⟩) - round,
   ⟨⟨-sl - round, -round⟩, ⟨sl + round, round⟩⟩⟩

end Must2

namespace Must3

open Classical in
/-- /repo/form3/must3/cylinders.go:21-41 `Box` and its `Evaluate`. -/
noncomputable def box (size : V3) (round : ℝ) : Option SDF3 :=
  if V3.LTEZero size then none
  else if round < 0 then none
  else
    let size := V3.scale 0.5 size
    let ssize := V3.sub size (V3.elem round)
    some ⟨fun p => sdfBox3d p ssize - round, ⟨V3.scale (-1) size, size⟩⟩

open Classical in
/-- /repo/form3/must3/cylinders.go:57-72 `Sphere` and its `Evaluate`. -/
noncomputable def sphere (radius : ℝ) : Option SDF3 :=
  if radius ≤ 0 then none
  else
    let d : V3 := ⟨radius, radius, radius⟩
    some ⟨fun p => V3.norm p - radius, ⟨V3.scale (-1) d, d⟩⟩

open Classical in
/-- /repo/form3/must3/cylinders.go:90-116 `Cylinder` and its `Evaluate`. -/
noncomputable def cylinder (height radius round : ℝ) : Option SDF3 :=
  if radius ≤ 0 then none
  else if round < 0 then none
  else if round > radius then none
  else if height < 2.0 * round then none
  else
    let sheight := height / 2 - round
    let sradius := radius - round
    let d : V3 := ⟨radius, radius, height / 2⟩
    some ⟨fun p => sdfBox2d ⟨V2.norm ⟨p.x, p.y⟩, p.z⟩ ⟨sradius, sheight⟩ - round, ⟨V3.scale (-1) d, d⟩⟩

/-- /repo/form3/must3/cylinders.go:126-135 the fields of `cone`; `height` is half the (inset) height. -/
structure ConeData where
  r0 : ℝ
  r1 : ℝ
  height : ℝ
  round : ℝ
  u : V2
  n : V2
  l : ℝ

/-- /repo/form3/must3/cylinders.go:149-160 the fields set by `Cone`. -/
noncomputable def coneData (height r0 r1 round : ℝ) : ConeData :=
  let sheight := height / 2 - round
  let u := V2.unit (V2.sub ⟨r1, height / 2⟩ ⟨r0, -height / 2⟩)
  let n : V2 := ⟨u.y, -u.x⟩
  let ofs := round / n.x
  let sr0 := r0 - (1 + n.y) * ofs
  let sr1 := r1 - (1 - n.y) * ofs
  let l := V2.norm (V2.sub ⟨sr1, sheight⟩ ⟨sr0, -sheight⟩)
  ⟨sr0, sr1, sheight, round, u, n, l⟩

open Classical in
/-- /repo/form3/must3/cylinders.go:168-195 `cone.Evaluate`, as a function of the radius and height coordinates
`p2`. -/
noncomputable def coneEval2 (s : ConeData) (p2 : V2) : ℝ :=
  if p2.y ≥ s.height ∧ p2.x ≤ s.r1 then p2.y - s.height - s.round
  else if p2.y ≤ -s.height ∧ p2.x ≤ s.r0 then -p2.y - s.height - s.round
  else
    let v := V2.sub p2 ⟨s.r0, -s.height⟩
    let dSlope := V2.dot v s.n
    if dSlope < 0 ∧ |p2.y| < s.height then -min (-dSlope) (s.height - |p2.y|) - s.round
    else
      let t := V2.dot v s.u
      if t ≥ 0 ∧ t ≤ s.l then dSlope - s.round
      else if t < 0 then V2.norm v - s.round
      else V2.norm (V2.sub p2 ⟨s.r1, s.height⟩) - s.round

open Classical in
/-- /repo/form3/must3/cylinders.go:138-196 `Cone` and its `Evaluate`. -/
noncomputable def cone (height r0 r1 round : ℝ) : Option SDF3 :=
  if height ≤ 0 then none
  else if round < 0 then none
  else if height < 2.0 * round then none
  else
    let s := coneData height r0 r1 round
    let r := max (s.r0 + round) (s.r1 + round)
    some ⟨fun p => coneEval2 s ⟨V2.norm ⟨p.x, p.y⟩, p.z⟩, ⟨⟨-r, -r, -height / 2⟩, ⟨r, r, height / 2⟩⟩⟩

end Must3

/-- What a constructor returning `(shape, error)` hands back: the shape is `none` for nil, `err` tells whether the
error is non-nil. -/
structure Returned (α : Type) where
  shape : Option α
  err : Bool

/-- The deferred `recover` of the wrappers, e.g. /repo/form3/basic.go:25-33: a panic of the wrapped constructor
becomes a nil shape with an error. -/
def recovered {α : Type} : Option α → Returned α
  | none => ⟨none, true⟩
  | some s => ⟨some s, false⟩

namespace Form2
/-- /repo/form2/basic.go:22-32 `Circle`; the outer `Option` is the wrapper's own panic, which `recover` excludes. -/
noncomputable def circle (radius : ℝ) : Option (Returned SDF2) := some (recovered (Must2.circle radius))
/-- /repo/form2/basic.go:35-45 `Box`. -/
noncomputable def box (size : V2) (round : ℝ) : Option (Returned SDF2) := some (recovered (some (Must2.box size round)))
/-- /repo/form2/basic.go:48-58 `Line`. -/
noncomputable def line (l round : ℝ) : Option (Returned SDF2) := some (recovered (some (Must2.line l round)))
end Form2

namespace Form3
/-- /repo/form3/basic.go:24-34 `Box`. -/
noncomputable def box (size : V3) (round : ℝ) : Option (Returned SDF3) := some (recovered (Must3.box size round))
/-- /repo/form3/basic.go:37-47 `Sphere`. -/
noncomputable def sphere (radius : ℝ) : Option (Returned SDF3) := some (recovered (Must3.sphere radius))
/-- /repo/form3/basic.go:50-60 `Cylinder`. -/
noncomputable def cylinder (height radius round : ℝ) : Option (Returned SDF3) :=
  some (recovered (Must3.cylinder height radius round))
/-- /repo/form3/basic.go:63-65 `Capsule`. -/
noncomputable def capsule (height radius : ℝ) : Option (Returned SDF3) := cylinder height radius radius
/-- /repo/form3/basic.go:68-78 `Cone`. -/
noncomputable def cone (height r0 r1 round : ℝ) : Option (Returned SDF3) :=
  some (recovered (Must3.cone height r0 r1 round))
end Form3

end Sdf
