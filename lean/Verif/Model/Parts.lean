import Verif.Model.Thread
import Verif.Model.Patterns

/-!
Ready-made parts: /repo/form2/obj2, /repo/form3/obj3 and the bolts, nuts and heads of /repo/form3/obj3/thread.
`none` is a panic (`Outcome.panic` where polygons are built).
-/

namespace Sdf

namespace Obj2

/-- /repo/form2/obj2/panel.go:34-41 `PanelParams`; the arrays are indexed 0 to 3 for top, right, bottom, left. -/
structure PanelParams where
  size : V2
  cornerRadius : ℝ
  holeDiameter : ℝ
  holeMargin : Fin 4 → ℝ
  holePattern : Fin 4 → String
  thickness : ℝ

open Classical in
/-- /repo/form2/obj2/panel.go:44-68 `Panel`; the error is always nil. -/
noncomputable def panel (k : PanelParams) : Option SDF2 :=
  let s0 := Must2.box k.size k.cornerRadius
  if k.holeDiameter ≤ 0.0 then some s0
  else do
    let tl : V2 := ⟨-0.5 * k.size.x + k.holeMargin 3, 0.5 * k.size.y - k.holeMargin 0⟩
    let tr : V2 := ⟨0.5 * k.size.x - k.holeMargin 1, 0.5 * k.size.y - k.holeMargin 0⟩
    let br : V2 := ⟨0.5 * k.size.x - k.holeMargin 1, -0.5 * k.size.y + k.holeMargin 2⟩
    let bl : V2 := ⟨-0.5 * k.size.x + k.holeMargin 3, -0.5 * k.size.y + k.holeMargin 2⟩
    let hole ← Must2.circle (0.5 * k.holeDiameter)
    let h0 ← hole.lineOf tl tr (k.holePattern 0)
    let h1 ← hole.lineOf tr br (k.holePattern 1)
    let h2 ← hole.lineOf br bl (k.holePattern 2)
    let h3 ← hole.lineOf bl tl (k.holePattern 3)
    let u ← SDF2.unionList [h0, h1, h2, h3]
    some (SDF2.difference s0 u)

/-- /repo/form2/obj2/panel.go:26 `millimetresPerInch`. -/
noncomputable def millimetresPerInch : ℝ := 25.4
/-- /repo/form2/obj2/panel.go:72 `erU`. -/
noncomputable def erU : ℝ := 1.75 * millimetresPerInch
/-- /repo/form2/obj2/panel.go:73 `erHP`. -/
noncomputable def erHP : ℝ := 0.2 * millimetresPerInch
/-- /repo/form2/obj2/panel.go:77 `erUGap`. -/
noncomputable def erUGap : ℝ := ((3 * erU) - 128.5) * 0.5
/-- /repo/form2/obj2/panel.go:78 `erHPGap`. -/
noncomputable def erHPGap : ℝ := ((3 * erHP) - 15) * 0.5

/-- /repo/form2/obj2/panel.go:81-88 `EuroRackParams`. -/
structure EuroRackParams where
  U : ℝ
  HP : ℝ
  cornerRadius : ℝ
  holeDiameter : ℝ
  thickness : ℝ
  ridge : Bool

/-- /repo/form2/obj2/panel.go:90-92 `HPSize`. -/
noncomputable def EuroRackParams.hpSize (k : EuroRackParams) : ℝ := (k.HP * erHP) - (2 * erHPGap)
/-- /repo/form2/obj2/panel.go:94-96 `USize`. -/
noncomputable def EuroRackParams.uSize (k : EuroRackParams) : ℝ := (k.U * erU) - (2 * erUGap)

open Classical in
/-- /repo/form2/obj2/panel.go:119-135: the panel parameters. -/
noncomputable def EuroRackParams.toPanel (k : EuroRackParams) : PanelParams :=
  let vMargin : ℝ := 3.0
  let hMargin := (3 * erHP * 0.5) - erHPGap
  ⟨⟨k.hpSize, k.uSize⟩, k.cornerRadius, k.holeDiameter, ![vMargin, hMargin, vMargin, hMargin],
    if k.HP < 8 then ![ "x", "", "", "x"] else !["x", "x", "x", "x"], 0⟩

open Classical in
/-- /repo/form2/obj2/panel.go:99-138 `EuroRackPanel`. -/
noncomputable def euroRackPanel (k : EuroRackParams) : Option SDF2 :=
  if k.U < 1 then none
  else if k.HP ≤ 1 then none
  else if k.cornerRadius < 0 then none
  else if k.holeDiameter ≤ 0 then none
  else panel k.toPanel

end Obj2

/-- /repo/sdf3.go:474-485 `Difference3D`: panics on nil (`none`). -/
noncomputable def SDF3.differenceNil : Option SDF3 → Option SDF3 → Option SDF3
  | some s0, some s1 => some (SDF3.difference s0 s1)
  | _, _ => none

/-- /repo/sdf3.go:419-439 `Union3D` of arguments that may be nil (`none`): panics if one is, or with fewer than two. -/
noncomputable def SDF3.unionNil (l : List (Option SDF3)) : Option SDF3 := do
  let l ← l.mapM id
  SDF3.unionList l

namespace Obj3

open Classical in
/-- /repo/form3/obj3/panel.go:12-21 `Panel`. -/
noncomputable def panel (k : Obj2.PanelParams) : Option SDF3 :=
  if k.thickness ≤ 0 then none
  else do
    let s ← Obj2.panel k
    some (SDF3.extrude s k.thickness)

open Classical in
/-- /repo/form3/obj3/panel.go:24-49 `EuroRackPanel`. -/
noncomputable def euroRackPanel (k : Obj2.EuroRackParams) : Option SDF3 :=
  if k.thickness ≤ 0 then none
  else do
    let panel2d ← Obj2.euroRackPanel k
    let s := SDF3.extrude panel2d k.thickness
    if ¬ k.ridge then some s
    else do
      let xSize := k.thickness
      let ySize := k.uSize - 18.0
      let zSize := k.thickness * 1.5
      let r ← Must3.box ⟨xSize, ySize, zSize⟩ 0
      let zOfs := 0.5 * (k.thickness + zSize)
      let xOfs := 0.5 * (k.hpSize - xSize)
      let r := r.transform (M44.translate ⟨0, 0, zOfs⟩)
      let r0 := r.transform (M44.translate ⟨xOfs, 0, 0⟩)
      let r1 := r.transform (M44.translate ⟨-xOfs, 0, 0⟩)
      SDF3.unionList [s, r0, r1]

/-- /repo/form3/obj3/panel.go:52-58 `PanelHoleParams`. -/
structure PanelHoleParams where
  diameter : ℝ
  thickness : ℝ
  indent : V3
  offset : ℝ
  orientation : ℝ

open Classical in
/-- /repo/form3/obj3/panel.go:61-93 `PanelHole`; the argument is not nil. -/
noncomputable def panelHole (k : PanelHoleParams) : Option SDF3 :=
  if k.diameter ≤ 0 then none
  else if k.thickness ≤ 0 then none
  else if k.indent.x < 0 ∨ k.indent.y < 0 ∨ k.indent.z < 0 then none
  else if k.offset < 0 then none
  else do
    let s ← Must3.cylinder k.thickness (k.diameter * 0.5) 0
    if k.offset = 0 ∨ k.indent.x = 0 ∨ k.indent.y = 0 ∨ k.indent.z = 0 then some s
    else do
      let indent ← Must3.box k.indent 0
      let zOfs := (k.thickness - k.indent.z) * 0.5
      let indent := indent.transform (M44.translate ⟨k.offset, 0, zOfs⟩)
      let s ← SDF3.unionList [s, indent]
      if k.orientation ≠ 0 then some (s.transform (M44.rotateZ k.orientation)) else some s

/-- /repo/form3/obj3/standoff.go:15-24 `StandoffParams`. -/
structure StandoffParams where
  pillarHeight : ℝ
  pillarDiameter : ℝ
  holeDepth : ℝ
  holeDiameter : ℝ
  numberWebs : ℤ
  webHeight : ℝ
  webDiameter : ℝ
  webWidth : ℝ

/-- /repo/form3/obj3/standoff.go:60-62 `pillar`. -/
noncomputable def pillar (k : StandoffParams) : Option SDF3 := Must3.cylinder k.pillarHeight (0.5 * k.pillarDiameter) 0

/-- /repo/form3/obj3/standoff.go:48-57 `pillarWeb`; a builder of plain vertices gives them back (`C35_plain_vertices`),
so its outline is written directly. -/
noncomputable def pillarWeb (k : StandoffParams) : Option SDF3 := do
  let p ← Must2.polygon [⟨0, 0⟩, ⟨0.5 * k.webDiameter, 0⟩, ⟨0, k.webHeight⟩]
  let s := SDF3.extrude p k.webWidth
  let m := (M44.translate ⟨0, 0, -0.5 * k.pillarHeight⟩).mul (M44.rotateX (90.0 * Real.pi / 180))
  some (s.transform m)

open Classical in
/-- /repo/form3/obj3/standoff.go:65-73 `pillarHole`: the inner `none` is nil. -/
noncomputable def pillarHole (k : StandoffParams) : Option (Option SDF3) :=
  if k.holeDiameter = 0.0 ∨ k.holeDepth = 0.0 then some none
  else do
    let s ← Must3.cylinder |k.holeDepth| (0.5 * k.holeDiameter) 0
    let zOfs := 0.5 * (k.pillarHeight - k.holeDepth)
    some (some (s.transform (M44.translate ⟨0, 0, zOfs⟩)))

open Classical in
/-- /repo/form3/obj3/standoff.go:28-35: the pillar and its webs. -/
noncomputable def pillarBody (k : StandoffParams) : Option SDF3 :=
  if k.numberWebs > 0 then do
    let s ← pillar k
    let web ← pillarWeb k
    let webs := web.rotateCopy k.numberWebs
    let s ← SDF3.unionList [s, webs]
    let cut ← Must3.cylinder k.pillarHeight k.webDiameter 0
    some (SDF3.intersect s cut)
  else pillar k

open Classical in
/-- /repo/form3/obj3/standoff.go:27-45 `Standoff`; the error is always nil. -/
noncomputable def standoff (k : StandoffParams) : Option SDF3 := do
  let s ← pillarBody k
  let hole ← pillarHole k
  if k.holeDepth ≥ 0.0 then SDF3.differenceNil (some s) hole
  else SDF3.unionNil [some s, hole]

end Obj3

namespace Thread
open Must2 (Outcome)

/-- Sequencing of computations that may panic. -/
def _root_.Sdf.Must2.Outcome.bind {α β : Type} : Outcome α → (α → Outcome β) → Outcome β
  | .ok a, f => f a
  | .panic, _ => .panic
  | .outOfFuel, _ => .outOfFuel

/-- A panic written as `none`. -/
def orPanic {α : Type} : Option α → Outcome α
  | some a => .ok a
  | none => .panic

open Classical in
/-- /repo/form3/obj3/thread/hexhead.go:16-46 `HexHead` for a rounding string that is "b" (`top = false`) or "tb"
(`top = true`), the two that bolts and nuts use. -/
noncomputable def hexHead (radius height : ℝ) (top : Bool) : Returned SDF3 :=
  let cornerRound := radius * 0.08
  match (Must2.nagon 6 (radius - cornerRound)) with
  | none => ⟨none, true⟩
  | some nagon =>
    match Must2.polygon nagon with
    | none => ⟨none, true⟩
    | some hex2d =>
      let hex3d := SDF3.extrude (hex2d.offset cornerRound) height
      let topRound := radius * 1.6
      let d := radius * Real.cos (30.0 * Real.pi / 180.0)
      match Must3.sphere topRound with
      | none => ⟨none, true⟩
      | some sphere3d =>
        let zOfs := Real.sqrt (topRound * topRound - d * d) - height / 2
        let hex3d := if top then SDF3.intersect hex3d (sphere3d.transform (M44.translate ⟨0, 0, -zOfs⟩)) else hex3d
        ⟨some (SDF3.intersect hex3d (sphere3d.transform (M44.translate ⟨0, 0, zOfs⟩))), false⟩

/-- /repo/form3/obj3/thread/knurl.go:17-24 `KnurlParams`. -/
structure KnurlParams where
  length : ℝ
  radius : ℝ
  pitch : ℝ
  height : ℝ
  theta : ℝ
  starts : ℤ

/-- /repo/form3/obj3/thread/knurl.go:27-43: `KnurlParams` as a `Threader`; the outline has five plain vertices. -/
noncomputable def KnurlParams.threader (k : KnurlParams) : Threader :=
  ⟨.ok (recovered (Must2.polygon [⟨k.pitch / 2, 0⟩, ⟨k.pitch / 2, k.radius⟩, ⟨0, k.radius + k.height⟩, ⟨-k.pitch / 2, k.radius⟩,
    ⟨-k.pitch / 2, 0⟩])), { basicParams (k.radius * 2) k.pitch with starts := k.starts }⟩

open Classical in
/-- /repo/form3/obj3/thread/knurl.go:46-79 `Knurl`. -/
noncomputable def knurl (k : KnurlParams) : Outcome (Returned SDF3) :=
  if k.length ≤ 0 then .panic
  else if k.radius ≤ 0 then .panic
  else if k.pitch ≤ 0 then .panic
  else if k.height ≤ 0 then .panic
  else if k.theta < 0 then .panic
  else if k.theta ≥ 90 * Real.pi / 180 then .panic
  else
    let starts := ⌊2 * Real.pi * k.radius * Real.tan k.theta / k.pitch⌋
    (screw k.length (some { k with starts := starts }.threader)).bind fun r0 =>
      if r0.err then .ok ⟨none, true⟩
      else (screw k.length (some { k with starts := -starts }.threader)).bind fun r1 =>
        if r1.err then .ok ⟨none, true⟩
        else
          match r0.shape, r1.shape with
          | some s0, some s1 => .ok ⟨some (SDF3.intersect s0 s1), false⟩
          | _, _ => .panic

/-- /repo/form3/obj3/thread/knurl.go:82-101 `KnurledHead`. -/
noncomputable def knurledHead (radius height pitch : ℝ) : Outcome (Returned SDF3) :=
  let cylinderRound := radius * 0.05
  let knurlLength := pitch * (⌊(height - cylinderRound) / pitch⌋ : ℝ)
  (knurl ⟨knurlLength, radius, pitch, pitch * 0.3, 45.0 * Real.pi / 180, 0⟩).bind fun r =>
    if r.err then .ok ⟨none, true⟩
    else
      match Must3.cylinder height radius cylinderRound with
      | none => .ok ⟨none, true⟩
      | some cylinder =>
        (orPanic (SDF3.unionNil [some cylinder, r.shape])).bind fun u => .ok ⟨some u, false⟩

/-- /repo/form3/obj3/thread/nut.go:10-17 `NutStyle`: the constants 1, 2, 3, and every other integer. -/
inductive Style | circular | hex | knurl | other

/-- /repo/form3/obj3/thread/bolt.go:12-18 `BoltParms`. -/
structure BoltParms where
  thread : Option Threader
  style : Style
  tolerance : ℝ
  totalLength : ℝ
  shankLength : ℝ

open Classical in
/-- /repo/form3/obj3/thread/bolt.go:21-75 `Bolt`.  The errors found by the checks at 22-33 are overwritten or dropped, so the
checks have no effect; a nil thread panics at 34. -/
noncomputable def bolt (fuel : ℕ) (k : BoltParms) : Outcome (Returned SDF3) :=
  match k.thread with
  | none => .panic
  | some t =>
    let param := t.params
    let hr := param.hexRadius
    let hh := param.hexHeight
    if hr ≤ 0 ∨ hh ≤ 0 then .ok ⟨none, true⟩
    else
      let withHead (head : Option SDF3) : Outcome (Returned SDF3) :=
        let shankLength := k.shankLength + hh / 2
        let shankOffset := shankLength / 2
        (orPanic (Must3.cylinder shankLength param.radius (hh * 0.08))).bind fun shank =>
          let shank := shank.transform (M44.translate ⟨0, 0, shankOffset⟩)
          let threadLength := k.totalLength - k.shankLength
          let threadLength := if threadLength < 0 then 0 else threadLength
          let finish (thread : Option SDF3) : Outcome (Returned SDF3) :=
            (orPanic (SDF3.unionNil [head, some shank, thread])).bind fun u => .ok ⟨some u, false⟩
          if threadLength ≠ 0 then
            (screw threadLength (some t)).bind fun r =>
              if r.err then .ok ⟨none, true⟩
              else (Must3.chamferedCylinder fuel r.shape 0 0.5).bind fun thread =>
                let threadOffset := threadLength / 2 + shankLength
                finish (some (thread.transform (M44.translate ⟨0, 0, threadOffset⟩)))
          else finish none
      match k.style with
      | .hex => withHead (hexHead hr hh false).shape
      | .knurl => (knurledHead hr hh (hr * 0.25)).bind fun r => withHead r.shape
      | _ => .ok ⟨none, true⟩

/-- /repo/form3/obj3/thread/nut.go:34-38 `NutParms`. -/
structure NutParms where
  thread : Option Threader
  style : Style
  tolerance : ℝ

open Classical in
/-- /repo/form3/obj3/thread/nut.go:41-79 `Nut`. -/
noncomputable def nut (k : NutParms) : Outcome (Returned SDF3) :=
  match k.thread with
  | none => .ok ⟨none, true⟩
  | some t =>
    if k.tolerance < 0 then .ok ⟨none, true⟩
    else
      let nr := t.params.hexRadius
      let nh := t.params.hexHeight
      if nr ≤ 0 ∨ nh ≤ 0 then .ok ⟨none, true⟩
      else
        let withNut (r : Returned SDF3) : Outcome (Returned SDF3) :=
          if r.err then .ok ⟨none, true⟩
          else (screw nh (some t)).bind fun r' =>
            if r'.err then .ok ⟨none, true⟩
            else (orPanic (SDF3.differenceNil r.shape r'.shape)).bind fun u => .ok ⟨some u, false⟩
        match k.style with
        | .hex => withNut (hexHead nr nh true)
        | .knurl => (knurledHead nr nh (nr * 0.25)).bind withNut
        | .circular => (orPanic (Must3.cylinder nh (nr * 1.1) 0)).bind fun s => withNut ⟨some s, false⟩
        | .other => .ok ⟨none, true⟩

end Thread
end Sdf
