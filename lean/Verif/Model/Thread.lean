import Verif.Model.Chamfer
import Mathlib.Analysis.SpecialFunctions.Trigonometric.Arctan

/-!
Screw threads: /repo/form3/obj3/thread.  The `Threader` interface is a record of what its two methods return; a nil
interface value is `none`.  Simplification: a `Threader`'s methods have no side effects.
-/

namespace Sdf
namespace Thread

/-- /repo/form3/obj3/thread/parameters.go:5-12 `Parameters`. -/
structure Parameters where
  name : String
  radius : ℝ
  pitch : ℝ
  starts : ℤ
  taper : ℝ
  hexF2F : ℝ

/-- /repo/form3/obj3/thread/parameters.go:15-17 `HexRadius`. -/
noncomputable def Parameters.hexRadius (t : Parameters) : ℝ := t.hexF2F / (2.0 * Real.cos (30 * Real.pi / 180))

/-- /repo/form3/obj3/thread/parameters.go:20-22 `HexHeight`. -/
noncomputable def Parameters.hexHeight (t : Parameters) : ℝ := 2.0 * t.hexRadius * (5.0 / 12.0)

/-- /repo/form3/obj3/thread/thread.go:25-28 `Threader`: what its methods return. -/
structure Threader where
  thread : Must2.Outcome (Returned SDF2)
  params : Parameters

/-- /repo/form3/obj3/thread/basic.go:26 `metricF2FTable`. -/
noncomputable def metricF2FTable : List ℝ :=
  [1.75, 2, 3.2, 4, 5, 6, 7, 8, 10, 13, 17, 19, 24, 30, 36, 46, 55, 65, 75, 85, 95]

open Classical in
/-- /repo/form3/obj3/thread/basic.go:31-44: the estimate.  `56/2` is an integer constant expression, 28. -/
noncomputable def estF2F (radius : ℝ) : ℝ :=
  if |radius - 28| < 1 then 86
  else if radius < 1.2 / 2 then 3.2 * radius
  else if radius < 3.8 / 2 then 4.5 * radius
  else if radius < 4.2 / 2 then 4 * radius
  else 3.5 * radius

open Classical in
/-- /repo/form3/obj3/thread/basic.go:45-51: the loop from the end of the table, here over the reversed table. -/
noncomputable def f2fLoop (est : ℝ) : List ℝ → Option ℝ
  | [] => none
  | v :: l => if est - 1e-2 > v then some v else f2fLoop est l

/-- /repo/form3/obj3/thread/basic.go:30-52 `metricf2f`. -/
noncomputable def metricf2f (radius : ℝ) : ℝ :=
  (f2fLoop (estF2F radius) metricF2FTable.reverse).getD 1.75

/-- /repo/form3/obj3/thread/basic.go:13-23 `basic.ThreadParams`. -/
noncomputable def basicParams (D P : ℝ) : Parameters :=
  let radius := D / 2
  ⟨"basic", radius, P, 1, 0, metricf2f radius⟩

/-- Several threads build a polygon and end with `must2.Polygon(poly.Vertices()), nil`. -/
noncomputable def profile (fuel : ℕ) (b : Must2.Builder) : Must2.Outcome (Returned SDF2) :=
  match b.vertices fuel with
  | .panic => .panic
  | .outOfFuel => .outOfFuel
  | .ok (v, _) =>
    match Must2.polygon v with
    | none => .panic
    | some s => .ok ⟨some s, false⟩

/-- /repo/form3/obj3/thread/acme.go:27-43: the polygon of `Acme.Thread`. -/
noncomputable def acmeBuilder (D P : ℝ) : Must2.Builder :=
  let radius := D / 2
  let h := radius - 0.5 * P
  let theta := (29.0 / 2.0) * Real.pi / 180.0
  let delta := 0.25 * P * Real.tan theta
  let xOfs0 := 0.25 * P - delta
  let xOfs1 := 0.25 * P + delta
  (((((((Must2.Builder.new.add (.plain ⟨radius, 0⟩)).add (.plain ⟨radius, h⟩)).add (.plain ⟨xOfs1, h⟩)).add
    (.plain ⟨xOfs0, radius⟩)).add (.plain ⟨-xOfs0, radius⟩)).add (.plain ⟨-xOfs1, h⟩)).add (.plain ⟨-radius, h⟩)).add
    (.plain ⟨-radius, 0⟩)

/-- /repo/form3/obj3/thread/acme.go:20-46 `Acme`. -/
noncomputable def acme (fuel : ℕ) (D P : ℝ) : Threader := ⟨profile fuel (acmeBuilder D P), basicParams D P⟩

/-- /repo/form3/obj3/thread/iso.go:32-61: the polygon of `ISO.Thread`. -/
noncomputable def isoBuilder (D P : ℝ) (ext : Bool) : Must2.Builder :=
  let radius := D / 2
  let theta := 30.0 * Real.pi / 180
  let h := P / (2.0 * Real.tan theta)
  let rMajor := radius
  let r0 := rMajor - (7.0 / 8.0) * h
  if ext then
    let rRoot := (P / 8.0) / Real.cos theta
    let xOfs := (1.0 / 16.0) * P
    (((((((Must2.Builder.new.add (.plain ⟨P, 0⟩)).add (.plain ⟨P, r0 + h⟩)).add
      ((Must2.PV.plain ⟨P / 2.0, r0⟩).smooth rRoot 5)).add (.plain ⟨xOfs, rMajor⟩)).add (.plain ⟨-xOfs, rMajor⟩)).add
      ((Must2.PV.plain ⟨-P / 2.0, r0⟩).smooth rRoot 5)).add (.plain ⟨-P, r0 + h⟩)).add (.plain ⟨-P, 0⟩)
  else
    let rMinor := r0 + (1.0 / 4.0) * h
    let rCrest := (P / 16.0) / Real.cos theta
    let xOfs := (1.0 / 8.0) * P
    ((((((Must2.Builder.new.add (.plain ⟨P, 0⟩)).add (.plain ⟨P, rMinor⟩)).add (.plain ⟨P / 2 - xOfs, rMinor⟩)).add
      ((Must2.PV.plain ⟨0, r0 + h⟩).smooth rCrest 5)).add (.plain ⟨-P / 2 + xOfs, rMinor⟩)).add (.plain ⟨-P, rMinor⟩)).add
      (.plain ⟨-P, 0⟩)

/-- /repo/form3/obj3/thread/iso.go:13-62 `ISO`. -/
noncomputable def iso (fuel : ℕ) (D P : ℝ) (ext : Bool) : Threader := ⟨profile fuel (isoBuilder D P ext), basicParams D P⟩

/-- /repo/form3/obj3/thread/uts.go:8-27 `UTS`. -/
noncomputable def uts (fuel : ℕ) (D TPI : ℝ) (ext : Bool) : Threader :=
  ⟨(iso fuel D (1.0 / TPI) ext).thread, basicParams D (1.0 / TPI)⟩

/-- /repo/form3/obj3/thread/ansibuttress.go:28-47: the polygon of `ANSIButtress.Thread`. -/
noncomputable def ansiBuilder (D P : ℝ) : Must2.Builder :=
  let radius := D / 2
  let t0 := Real.tan (45.0 * Real.pi / 180)
  let t1 := Real.tan (7.0 * Real.pi / 180)
  let b := 0.6
  let h0 := P / (t0 + t1)
  let h1 := ((b / 2.0) * P) + (0.5 * h0)
  let hp := P / 2.0
  ((((((Must2.Builder.new.add (.plain ⟨P, 0⟩)).add (.plain ⟨P, radius⟩)).add (.plain ⟨hp - ((h0 - h1) * t1), radius⟩)).add
    ((Must2.PV.plain ⟨t0 * h0 - hp, radius - h1⟩).smooth (0.0714 * P) 5)).add (.plain ⟨(h0 - h1) * t0 - hp, radius⟩)).add
    (.plain ⟨-P, radius⟩)).add (.plain ⟨-P, 0⟩)

/-- /repo/form3/obj3/thread/ansibuttress.go:10-48 `ANSIButtress`. -/
noncomputable def ansiButtress (fuel : ℕ) (D P : ℝ) : Threader := ⟨profile fuel (ansiBuilder D P), basicParams D P⟩

/-- /repo/form3/obj3/thread/plasticbuttress.go:26-46: the polygon of `PlasticButtress.Thread`. -/
noncomputable def plasticBuilder (D P : ℝ) : Must2.Builder :=
  let radius := D / 2
  let t0 := Real.tan (45.0 * Real.pi / 180)
  let t1 := Real.tan (7.0 * Real.pi / 180)
  let b := 0.6
  let h0 := P / (t0 + t1)
  let h1 := ((b / 2.0) * P) + (0.5 * h0)
  let hp := P / 2.0
  ((((((Must2.Builder.new.add (.plain ⟨P, 0⟩)).add (.plain ⟨P, radius⟩)).add
    ((Must2.PV.plain ⟨hp - ((h0 - h1) * t1), radius⟩).smooth (0.05 * P) 5)).add
    ((Must2.PV.plain ⟨t0 * h0 - hp, radius - h1⟩).smooth (0.15 * P) 5)).add
    ((Must2.PV.plain ⟨(h0 - h1) * t0 - hp, radius⟩).smooth (0.15 * P) 5)).add (.plain ⟨-P, radius⟩)).add (.plain ⟨-P, 0⟩)

/-- /repo/form3/obj3/thread/plasticbuttress.go:10-47 `PlasticButtress`. -/
noncomputable def plasticButtress (fuel : ℕ) (D P : ℝ) : Threader := ⟨profile fuel (plasticBuilder D P), basicParams D P⟩

/-- /repo/form3/obj3/thread/npt.go:10-18 `NPT`. -/
structure NPT where
  D : ℝ
  TPI : ℝ
  F2F : ℝ

/-- /repo/form3/obj3/thread/npt.go:36-41 `nptSpec`. -/
structure NptSpec where
  N : ℝ
  D : ℝ
  tpi : ℝ
  ftof : ℝ

/-- /repo/form3/obj3/thread/npt.go:43-56 `nptLookupTable`. -/
noncomputable def nptLookupTable : List NptSpec :=
  [⟨1.0 / 8.0, 0.405, 27, 11.2 / 25.4⟩,
   ⟨1.0 / 4.0, 0.540, 18, 15.7 / 25.4⟩,
   ⟨3.0 / 8.0, 0.675, 18, 17.5 / 25.4⟩,
   ⟨1.0 / 2.0, 0.840, 14, 22.4 / 25.4⟩,
   ⟨3.0 / 4.0, 1.050, 14, 26.9 / 25.4⟩,
   ⟨1.0, 1.315, 11.5, 35.1 / 25.4⟩,
   ⟨1 + 1.0 / 4.0, 1.660, 11.5, 44.5 / 25.4⟩,
   ⟨1 + 1.0 / 2.0, 1.900, 11.5, 50.8 / 25.4⟩,
   ⟨2, 2.375, 11.5, 63.5 / 25.4⟩,
   ⟨2 + 1.0 / 2.0, 2.875, 8, 76.2 / 25.4⟩,
   ⟨3, 3.500, 8, 88.9 / 25.4⟩,
   ⟨4, 4.500, 8, 117.3 / 25.4⟩]

open Classical in
/-- /repo/form3/obj3/thread/npt.go:63-71: the loop over the table; the value afterwards and whether an error is returned. -/
noncomputable def nptLoop (npt : NPT) (nominal : ℝ) : List NptSpec → NPT × Bool
  | [] => (npt, true)
  | a :: l => if |a.N - nominal| < 1 / 32 then ({ npt with D := a.D, F2F := a.ftof, TPI := a.tpi }, false) else nptLoop npt nominal l

/-- /repo/form3/obj3/thread/npt.go:61-72 `SetFromNominal`. -/
noncomputable def NPT.setFromNominal (npt : NPT) (nominal : ℝ) : NPT × Bool := nptLoop npt nominal nptLookupTable

open Classical in
/-- /repo/form3/obj3/thread/npt.go:22-30 `NPT.ThreadParams`. -/
noncomputable def NPT.params (npt : NPT) : Parameters :=
  let p := basicParams npt.D (1.0 / npt.TPI)
  { p with name := "NPT", taper := Real.arctan (1.0 / 32.0), hexF2F := if npt.F2F > 0 then npt.F2F else p.hexF2F }

/-- /repo/form3/obj3/thread/npt.go:22-34: `NPT` as a `Threader`. -/
noncomputable def NPT.threader (fuel : ℕ) (npt : NPT) : Threader := ⟨(iso fuel npt.D (1.0 / npt.TPI) false).thread, npt.params⟩

/-- /repo/form3/obj3/thread/thread.go:36-44 the fields of `screw`, without the box. -/
structure ScrewData where
  thread : SDF2
  pitch : ℝ
  lead : ℝ
  length : ℝ
  taper : ℝ

open Classical in
/-- /repo/form3/obj3/thread/thread.go:81-101 `screw.Evaluate`; `sawTooth` at 108-112 is the function of /repo/utils.go:90-94. -/
noncomputable def ScrewData.eval (s : ScrewData) (p : V3) : ℝ :=
  let y := Real.sqrt (p.x * p.x + p.y * p.y)
  let y := if s.taper ≠ 0 then y + p.z * Real.arctan s.taper else y
  let theta := atan2 p.y p.x
  let z := p.z + s.lead * theta / (2 * Real.pi)
  let x := sawTooth z s.pitch
  let d0 := s.thread.eval ⟨x, y⟩
  let d1 := |p.z| - s.length
  max d0 d1

/-- /repo/form3/obj3/thread/thread.go:64-77: the screw for a profile, parameters and a length. -/
noncomputable def screwOf (length : ℝ) (tsdf : SDF2) (params : Parameters) : SDF3 :=
  let s : ScrewData := ⟨tsdf, params.pitch, -params.pitch * params.starts, length / 2, params.taper⟩
  let r := tsdf.bounds.hi.y + s.length * Real.tan s.taper
  ⟨s.eval, ⟨⟨-r, -r, -s.length⟩, ⟨r, r, s.length⟩⟩⟩

open Classical in
/-- /repo/form3/obj3/thread/thread.go:51-78 `Screw`.  A profile that is nil without an error panics at line 71. -/
noncomputable def screw (length : ℝ) (thread : Option Threader) : Must2.Outcome (Returned SDF3) :=
  match thread with
  | none => .ok ⟨none, true⟩
  | some t =>
    if length ≤ 0 then .ok ⟨none, true⟩
    else
      match t.thread with
      | .panic => .panic
      | .outOfFuel => .outOfFuel
      | .ok r =>
        if r.err then .ok ⟨none, true⟩
        else
          match r.shape with
          | none => .panic
          | some tsdf => .ok ⟨some (screwOf length tsdf t.params), false⟩

end Thread
end Sdf
