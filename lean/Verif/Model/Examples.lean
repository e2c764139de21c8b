import Verif.Model.Parts
import Verif.Model.Matter

/-!
Programs of /repo/examples: the solids they build.  The STL files they write of them are covered by the model of `render`
(`Verif.Model.Stl`).
-/

namespace Sdf.Examples
open Must2 (Outcome)

/-- /repo/form3/obj3/thread/hexhead.go:16-46 `HexHead` for an empty rounding string: a plain prism. -/
noncomputable def hexHeadFlat (radius height : ℝ) : Returned SDF3 :=
  let cornerRound := radius * 0.08
  match Must2.nagon 6 (radius - cornerRound) with
  | none => ⟨none, true⟩
  | some nagon =>
    match Must2.polygon nagon with
    | none => ⟨none, true⟩
    | some hex2d => ⟨some (SDF3.extrude (hex2d.offset cornerRound) height), false⟩

/-- /repo/examples/metric-spacers/spacers.go:64-66 `getHexRadiusFromFTF`. -/
noncomputable def hexRadiusFromFTF (ftf : ℝ) : ℝ := ftf / Real.cos (30 * Real.pi / 180) / 2

/-- /repo/examples/metric-spacers/spacers.go:50: face to face distance of the spacer around a hole. -/
noncomputable def spacerFTF (hole : ℝ) : ℝ := (⌈hole * 1.4⌉ : ℝ) - 0.15

/-- /repo/examples/metric-spacers/spacers.go:47-62 `spacer.sdf` for a spacer of diameter `D` and height `H`; `none` is a panic. -/
noncomputable def spacer (m : Viscoelastic) (D H : ℝ) : Option (Returned SDF3) := do
  let hole ← m.internalDimScale (D * (1 + 0.03))
  let sp := hexHeadFlat (hexRadiusFromFTF (spacerFTF hole)) H
  if sp.err then some ⟨none, true⟩
  else do
    let cyl ← Form3.cylinder H (hole / 2) 0
    if cyl.err then some ⟨none, true⟩
    else do
      let u ← SDF3.differenceNil sp.shape cyl.shape
      some ⟨some u, false⟩

/-- /repo/examples/metric-spacers/spacers.go:31-39: the spacers side by side, the next one three diameters on; `none` is a panic. -/
noncomputable def spacerRow (m : Viscoelastic) : ℝ → List (ℝ × ℝ) → Option (List SDF3)
  | _, [] => some []
  | x, (D, H) :: rest => do
    let r ← spacer m D H
    if r.err then none
    else do
      let s ← r.shape
      let l ← spacerRow m (x + D * 3) rest
      some (s.transform (M44.translate ⟨x, 0, 0⟩) :: l)

/-- /repo/examples/metric-spacers/spacers.go:21-28: diameters and heights. -/
def spacerSizes : List (ℝ × ℝ) := [(3, 7), (3, 12), (4, 7), (6, 30), (8, 30), (16, 10)]

/-- /repo/examples/pcb-support/support.go:48-58: the panel, before extrusion. -/
noncomputable def supportPanel : Option SDF2 := do
  let d ← pla.internalDimScale 3.5
  Obj2.panel ⟨⟨100, 100⟩, 3.5 * 1.2, d, fun _ => 4.5, fun _ => "x", 0⟩

/-- /repo/examples/pcb-support/support.go:60-61: the plate. -/
noncomputable def supportPlate : Option SDF3 := do
  let p ← supportPanel
  some ((SDF3.extrude p 2.5).transform (M44.translate ⟨100 / 2, 100 / 2, 0⟩))

/-- /repo/examples/pcb-support/support.go:63-67 and 69-73: cylinders removed one after the other. -/
noncomputable def drill (height radius : ℝ) : SDF3 → List V2 → Option SDF3
  | s, [] => some s
  | s, so :: rest => do
    let c ← Must3.cylinder height radius 0
    drill height radius (SDF3.difference s (c.transform (M44.translate ⟨so.x, so.y, 0⟩))) rest

/-- /repo/examples/pcb-support/support.go:30-35 `boxHoles`. -/
noncomputable def boxHoles : List V2 := [⟨13, 30⟩, ⟨13 + 102, 30⟩, ⟨13, 30 + 60⟩, ⟨13 + 102, 90 + 60⟩]

/-- /repo/examples/pcb-support/support.go:37-42 `boxStandoffs`. -/
noncomputable def boxStandoffs : List V2 := [⟨13, 12.5⟩, ⟨13 + 102, 12.5⟩, ⟨13, 12.5 + 95⟩, ⟨13 + 102, 12.5 + 95⟩]

/-- /repo/examples/pcb-support/support.go:60-73: the plate with its holes, before the pillars are added. -/
noncomputable def drilledPlate : Option SDF3 := do
  let s ← supportPlate
  let s ← drill (2.5 * 2) (8.0 / 2) s boxStandoffs
  drill 10 (3.5 / 2) s boxHoles

/-- /repo/examples/npt-flange/flange.go:26-35: the threaded part, stretched to make up for shrinkage. -/
noncomputable def flangePipe (fuel : ℕ) : Outcome (Returned SDF3) :=
  let npt := ((⟨0, 0, 0⟩ : Thread.NPT).setFromNominal (1.0 / 2.0)).1
  (Thread.nut ⟨some (npt.threader fuel), .circular, 0⟩).bind fun r =>
    match r with
    | ⟨some s, false⟩ => .ok ⟨some (s.transform (M44.scale ⟨1.03, 1.03, 1⟩)), false⟩
    | _ => .panic

/-- /repo/examples/npt-flange/flange.go:36-37: the flange. -/
noncomputable def flangeDisc : Option SDF3 := do
  let s ← Must3.cylinder (7 / 25.4) (60 / 25.4 / 2) (7 / 25.4 / 8)
  some (s.transform (M44.translate ⟨0, 0, -(18 / 25.4) / 2⟩))

/-- /repo/examples/npt-flange/flange.go:38-44: the finished part, in millimetres. -/
noncomputable def flangePart (pipe flange : SDF3) : Option SDF3 := do
  let union := SDF3.unionWith (minPoly 2 0.2) pipe [flange]
  let hole ← Must3.cylinder (4 * (7 / 25.4)) (1.5 / 2 / 2) 0
  some ((SDF3.difference union hole).scaleUniform 25.4)

/-- /repo/examples/adz-sensor-cover/cover.go:31-36: the part that takes the connector; `none` is a panic. -/
noncomputable def coverConnector : Option SDF3 := do
  let cover ← Must3.box ⟨15.6 + 2 * 0.55 * 2, 15.6 + 2 * 0.55 * 2, 1 / 2 + 3⟩ (2 * 0.55 / 2)
  let dim ← pla.internalDimScale 15.6
  let empty ← Must3.box ⟨dim, dim, 3⟩ 0
  some (SDF3.difference cover (empty.transform (M44.translate ⟨0, 0, 1 / 4⟩)))

/-- /repo/examples/adz-sensor-cover/cover.go:39-45: the part that takes the sensor. -/
noncomputable def coverSensor : Option SDF3 := do
  let sensorCover ← Must3.cylinder (3 + 1 / 2) (23 / 2 + 2 * 0.55) (2 * 0.55 / 2)
  let dim ← pla.internalDimScale (23 / 2)
  let empty ← Must3.cylinder 3 dim (2 * 0.55 / 2 * 2)
  let sensorCover := SDF3.difference sensorCover (empty.transform (M44.translate ⟨0, 0, -1 / 4⟩))
  some (sensorCover.transform (M44.translate ⟨0, 0, -(3 + 1 / 2)⟩))

/-- /repo/examples/adz-sensor-cover/cover.go:46-53: both, with the hole for the pins, enlarged to make up for shrinkage. -/
noncomputable def sensorCover : Option SDF3 := do
  let cover ← coverConnector
  let sensor ← coverSensor
  let hole ← Must3.box ⟨10, 10, 4 * (2 * 0.55)⟩ 0
  let hole := hole.transform (M44.translate ⟨0, 0, -2 * (2 * 0.55)⟩)
  some (pla.scale (SDF3.difference (SDF3.union cover [sensor]) hole))

/-- /repo/examples/pcb-spacer/boardspacer.go:84-99 `standoffs`; `none` is a panic. -/
noncomputable def standoffs (holeWidth : ℝ) (positions : List V3) : Option SDF3 := do
  let d ← pla.internalDimScale holeWidth
  let s ← Obj3.standoff ⟨7, holeWidth * 2, 7 + 2.4, d, 0, 0, 0, 0⟩
  s.multi positions

/-- /repo/examples/pcb-spacer/boardspacer.go:60-67: standoffs above the holes of the base, and two others. -/
noncomputable def m4Positions : List V3 :=
  let zOfs := 0.5 * (7 + 2.4)
  [⟨4.5, 4.5, zOfs⟩, ⟨4.5, 95.5, zOfs⟩, ⟨95.5, 95.5, zOfs⟩, ⟨95.5, 4.5, zOfs⟩, ⟨60, 30, zOfs⟩, ⟨60, 70, zOfs⟩]

/-- /repo/examples/pcb-spacer/boardspacer.go:69-76: the smaller standoffs. -/
noncomputable def m3Positions : List V3 :=
  let zOfs := 0.5 * (7 + 2.4)
  [⟨9, 35.5, zOfs⟩, ⟨9, 62.5, zOfs⟩, ⟨91, 64.5, zOfs⟩, ⟨91, 37.5, zOfs⟩, ⟨35.5, 91, zOfs⟩, ⟨62.5, 91, zOfs⟩]

/-- /repo/examples/pcb-spacer/boardspacer.go:40-81 `base`. -/
noncomputable def spacerBase : Option SDF3 := do
  let d ← pla.internalDimScale 4
  let pan ← Obj2.panel ⟨⟨100, 100⟩, 4 * 1.2, d, fun _ => 4.5, fun _ => "x", 0⟩
  let s2 := (SDF3.extrude pan 2.4).transform (M44.translate ⟨0.5 * 100, 0.5 * 100, 0⟩)
  let m4 ← standoffs 4 m4Positions
  let m3 ← standoffs 3 m3Positions
  some (SDF3.unionWith (minPoly 2 3) s2 [m4, m3])

end Sdf.Examples
