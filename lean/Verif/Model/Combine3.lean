import Verif.Model.Sdf
import Verif.Model.Utils

/-!
The combinators of /repo/sdf3.go.  A shape argument is never nil here; constructors that panic on nil or on a
wrong number of arguments are modelled with `Option` (`none` is a panic) where that matters
(`Verif.Model.Patterns`).  The blending functions set by `SetMin`/`SetMax` are explicit arguments, `min` and
`max` being the defaults installed by the constructors.
-/

namespace Sdf

namespace SDF3

/-- /repo/sdf3.go:913-928 `empty3`. -/
noncomputable def empty (center : V3) : SDF3 := ⟨fun _ => maxFloat64, ⟨center, center⟩⟩

/-- /repo/sdf3.go:907-911 `empty3From`. -/
noncomputable def emptyFrom (s : SDF3) : SDF3 := empty s.bounds.center

/-- The set of corner directions of /repo/sdf3.go:67-81. -/
noncomputable def revolveSet (full : Prop) (theta : ℝ) : List V2 :=
  open Classical in
  if full then [⟨1, 1⟩, ⟨-1, -1⟩]
  else [⟨0, 0⟩, ⟨1, 0⟩, ⟨Real.cos theta, Real.sin theta⟩]
    ++ (if theta > 0.5 * Real.pi then [⟨0, 1⟩] else [])
    ++ (if theta > Real.pi then [⟨-1, 0⟩] else [])
    ++ (if theta > 1.5 * Real.pi then [⟨0, -1⟩] else [])

open Classical in
/-- /repo/sdf3.go:91-106 `revolution3.Evaluate`, `theta` being the normalised angle. -/
noncomputable def revolveEval (s : SDF2) (theta : ℝ) (p : V3) : ℝ :=
  let norm : V2 := ⟨-Real.sin theta, Real.cos theta⟩
  let x := Real.sqrt (p.x * p.x + p.y * p.y)
  let a := s.eval ⟨x, p.z⟩
  let b :=
    if theta ≠ 0 then
      let d := V2.dot norm ⟨p.x, p.y⟩
      if theta < Real.pi then max (-p.y) d else min (-p.y) d
    else a
  max a b

open Classical in
/-- /repo/sdf3.go:48-88 `Revolve3D`. -/
noncomputable def revolve (s : SDF2) (theta : ℝ) : SDF3 :=
  if theta ≤ 0 then empty ⟨0, 0, 0⟩
  else
    let theta := if |theta - 2 * Real.pi| < tolerance then 0 else theta
    let th := goMod |theta| tau
    let vset := revolveSet (theta = 0) th
    let bb := s.bounds
    let l := max |bb.lo.x| |bb.hi.x|
    let vmin := V2.scale l (V2.setMin vset)
    let vmax := V2.scale l (V2.setMax vset)
    ⟨revolveEval s th, ⟨⟨vmin.x, vmin.y, bb.lo.y⟩, ⟨vmax.x, vmax.y, bb.hi.y⟩⟩⟩

/-- /repo/sdf3.go:174-181 `extrude3.Evaluate`; `height` is half the height of the solid. -/
noncomputable def extrudeEval (s : SDF2) (height : ℝ) (extrude : V3 → V2) (p : V3) : ℝ :=
  let a := s.eval (extrude p)
  let b := |p.z| - height
  max a b

/-- /repo/sdf3.go:122-131 `Extrude3D`. -/
noncomputable def extrude (s : SDF2) (height : ℝ) : SDF3 :=
  let h := height / 2
  let bb := s.bounds
  ⟨extrudeEval s h normalExtrude, ⟨⟨bb.lo.x, bb.lo.y, -h⟩, ⟨bb.hi.x, bb.hi.y, h⟩⟩⟩

/-- /repo/sdf3.go:134-144 `TwistExtrude3D`. -/
noncomputable def twistExtrude (s : SDF2) (height twist : ℝ) : SDF3 :=
  let h := height / 2
  let bb := s.bounds
  let l := V2.norm bb.hi
  ⟨extrudeEval s h (Sdf.twistExtrude height twist), ⟨⟨-l, -l, -h⟩, ⟨l, l, h⟩⟩⟩

/-- /repo/sdf3.go:147-157 `ScaleExtrude3D`. -/
noncomputable def scaleExtrude (s : SDF2) (height : ℝ) (scale : V2) : SDF3 :=
  let h := height / 2
  let bb := s.bounds
  let bb := bb.extend ⟨V2.mulElem bb.lo scale, V2.mulElem bb.hi scale⟩
  ⟨extrudeEval s h (Sdf.scaleExtrude height scale), ⟨⟨bb.lo.x, bb.lo.y, -h⟩, ⟨bb.hi.x, bb.hi.y, h⟩⟩⟩

/-- /repo/sdf3.go:160-171 `ScaleTwistExtrude3D`. -/
noncomputable def scaleTwistExtrude (s : SDF2) (height twist : ℝ) (scale : V2) : SDF3 :=
  let h := height / 2
  let bb := s.bounds
  let bb := bb.extend ⟨V2.mulElem bb.lo scale, V2.mulElem bb.hi scale⟩
  let l := V2.norm bb.hi
  ⟨extrudeEval s h (Sdf.scaleTwistExtrude height twist scale), ⟨⟨-l, -l, -h⟩, ⟨l, l, h⟩⟩⟩

open Classical in
/-- The combination of the planar distance `a` and the distance `b` beyond the end planes at
/repo/sdf3.go:238-257, repeated at 315-334 (with `math.Sqrt(a*a+b*b)` for `math.Hypot(a, b)`). -/
noncomputable def roundJoin (a b : ℝ) : ℝ :=
  if b > 0 then
    if a < 0 then b else Real.sqrt (a * a + b * b)
  else
    if a < 0 then max a b else a

open Classical in
/-- /repo/sdf3.go:206-259 `ExtrudeRounded3D` and its `Evaluate`. -/
noncomputable def extrudeRounded (s : SDF2) (height round : ℝ) : SDF3 :=
  if round = 0 then extrude s height
  else if height ≤ 0 then empty ⟨0, 0, 0⟩
  else if round < 0 then empty ⟨0, 0, 0⟩
  else if height < 2 * round then empty ⟨0, 0, 0⟩
  else
    let h := height / 2 - round
    let bb := s.bounds
    ⟨fun p => roundJoin (s.eval ⟨p.x, p.y⟩) (|p.z| - h) - round,
     ⟨V3.sub ⟨bb.lo.x, bb.lo.y, -h⟩ (V3.elem round), V3.add ⟨bb.hi.x, bb.hi.y, h⟩ (V3.elem round)⟩⟩

open Classical in
/-- /repo/sdf3.go:278-336 `Loft3D` and its `Evaluate`.  When `height = 2*round` Go divides by zero (giving
an infinity or NaN); theorems exclude that case. -/
noncomputable def loft (s0 s1 : SDF2) (height round : ℝ) : SDF3 :=
  if height ≤ 0 then empty ⟨0, 0, 0⟩
  else if round < 0 then empty ⟨0, 0, 0⟩
  else if height < 2 * round then empty ⟨0, 0, 0⟩
  else
    let h := height / 2 - round
    let bb := s0.bounds.extend s1.bounds
    ⟨fun p =>
      let k := Sdf.clamp (0.5 * p.z / h + 0.5) 0 1
      roundJoin (mix (s0.eval ⟨p.x, p.y⟩) (s1.eval ⟨p.x, p.y⟩) k) (|p.z| - h) - round,
     ⟨V3.sub ⟨bb.lo.x, bb.lo.y, -h⟩ (V3.elem round), V3.add ⟨bb.hi.x, bb.hi.y, h⟩ (V3.elem round)⟩⟩

/-- /repo/sdf3.go:354-370 `Transform3D` and its `Evaluate`. -/
noncomputable def transform (s : SDF3) (m : M44) : SDF3 :=
  ⟨fun p => s.eval (m.inverse.mulPosition p), m.mulBox s.bounds⟩

/-- /repo/sdf3.go:387-402 `ScaleUniform3D` and its `Evaluate`. -/
noncomputable def scaleUniform (s : SDF3) (k : ℝ) : SDF3 :=
  ⟨fun p => s.eval (V3.scale (1.0 / k) p) * k, (M44.scale ⟨k, k, k⟩).mulBox s.bounds⟩

/-- /repo/sdf3.go:419-452 `Union3D` and its `Evaluate`, for the argument list `s0 :: l`. -/
noncomputable def unionWith (mn : ℝ → ℝ → ℝ) (s0 : SDF3) (l : List SDF3) : SDF3 :=
  ⟨fun p => l.foldl (fun d x => mn d (x.eval p)) (s0.eval p),
   (s0 :: l).foldl (fun bb x => bb.extend x.bounds) s0.bounds⟩

/-- /repo/sdf3.go:437: the default minimum is `math.Min`. -/
noncomputable def union (s0 : SDF3) (l : List SDF3) : SDF3 := unionWith min s0 l

/-- /repo/sdf3.go:474-489 `Difference3D` and its `Evaluate`. -/
noncomputable def differenceWith (mx : ℝ → ℝ → ℝ) (s0 s1 : SDF3) : SDF3 :=
  ⟨fun p => mx (s0.eval p) (-s1.eval p), s0.bounds⟩

/-- /repo/sdf3.go:481: the default maximum is `math.Max`. -/
noncomputable def difference (s0 s1 : SDF3) : SDF3 := differenceWith max s0 s1

/-- /repo/sdf3.go:509-528 `Elongate3D` and its `Evaluate`. -/
noncomputable def elongate (s : SDF3) (h : V3) : SDF3 :=
  let h := V3.absElem h
  let hp := V3.scale 0.5 h
  let hn := V3.scale (-0.5) h
  ⟨fun p => s.eval (V3.sub p (V3.clamp p hn hp)),
   (s.bounds.translate hp).extend (s.bounds.translate hn)⟩

/-- /repo/sdf3.go:545-561 `Intersect3D` and its `Evaluate`. -/
noncomputable def intersectWith (mx : ℝ → ℝ → ℝ) (s0 s1 : SDF3) : SDF3 :=
  ⟨fun p => mx (s0.eval p) (s1.eval p), s0.bounds⟩

/-- /repo/sdf3.go:552: the default maximum is `math.Max`. -/
noncomputable def intersect (s0 s1 : SDF3) : SDF3 := intersectWith max s0 s1

/-- /repo/sdf3.go:583-596 `Cut3D` and its `Evaluate`. -/
noncomputable def cut (s : SDF3) (a n : V3) : SDF3 :=
  let n := V3.scale (-1) (V3.unit n)
  ⟨fun p => max (V3.dot n (V3.sub p a)) (s.eval p), s.bounds⟩

/-- /repo/sdf3.go:636-647 `array3.Evaluate`: the three nested loops. -/
noncomputable def arrayEval (mn : ℝ → ℝ → ℝ) (s : SDF3) (n0 n1 n2 : ℕ) (step : V3) (p : V3) : ℝ :=
  (List.range n0).foldl (fun d (j : ℕ) =>
    (List.range n1).foldl (fun d (k : ℕ) =>
      (List.range n2).foldl (fun d (l : ℕ) =>
        let x := V3.sub p ⟨(j : ℝ) * step.x, (k : ℝ) * step.y, (l : ℝ) * step.z⟩
        mn d (s.eval x)) d) d) maxFloat64

open Classical in
/-- /repo/sdf3.go:613-628 `Array3D`. -/
noncomputable def arrayWith (mn : ℝ → ℝ → ℝ) (s : SDF3) (n0 n1 n2 : ℤ) (step : V3) : SDF3 :=
  if n0 ≤ 0 ∨ n1 ≤ 0 ∨ n2 ≤ 0 then emptyFrom s
  else
    let bb1 := s.bounds.translate (V3.mulElem step ⟨((n0 - 1 : ℤ) : ℝ), ((n1 - 1 : ℤ) : ℝ), ((n2 - 1 : ℤ) : ℝ)⟩)
    ⟨arrayEval mn s n0.toNat n1.toNat n2.toNat step, s.bounds.extend bb1⟩

/-- /repo/sdf3.go:622: the default minimum is `math.Min`. -/
noncomputable def array (s : SDF3) (n0 n1 n2 : ℤ) (step : V3) : SDF3 := arrayWith min s n0 n1 n2 step

/-- /repo/sdf3.go:693-697 the loop of `rotateUnion.Evaluate`: `n` rounds remain. -/
noncomputable def rotateUnionLoop (mn : ℝ → ℝ → ℝ) (s : SDF3) (step : M44) (p : V3) : ℕ → M44 → ℝ → ℝ
  | 0, _, d => d
  | n + 1, rot, d =>
    rotateUnionLoop mn s step p n (rot.mul step) (mn d (s.eval (rot.mulPosition p)))

/-- /repo/sdf3.go:679-684 the bounding box loop of `RotateUnion3D`: `n` rounds remain, `v` are the transformed
corners. -/
noncomputable def rotateUnionBox (step : M44) : ℕ → List V3 → Box3 → Box3
  | 0, _, b => b
  | n + 1, v, b =>
    rotateUnionBox step n (v.map step.mulPosition) ⟨V3.minElem b.lo (V3.setMin v), V3.maxElem b.hi (V3.setMax v)⟩

open Classical in
/-- /repo/sdf3.go:665-699 `RotateUnion3D` and its `Evaluate`. -/
noncomputable def rotateUnionWith (mn : ℝ → ℝ → ℝ) (s : SDF3) (num : ℤ) (step : M44) : SDF3 :=
  if num ≤ 0 then emptyFrom s
  else
    let v := s.bounds.vertices
    ⟨fun p => rotateUnionLoop mn s step.inverse p num.toNat M44.identity maxFloat64,
     rotateUnionBox step num.toNat v ⟨v.head!, v.head!⟩⟩

/-- /repo/sdf3.go:674: the default minimum is `math.Min`. -/
noncomputable def rotateUnion (s : SDF3) (num : ℤ) (step : M44) : SDF3 := rotateUnionWith min s num step

open Classical in
/-- /repo/sdf3.go:720-751 `RotateCopy3D` and its `Evaluate`. -/
noncomputable def rotateCopy (s : SDF3) (num : ℤ) : SDF3 :=
  if num ≤ 0 then emptyFrom s
  else
    let theta := tau / (num : ℝ)
    let bb := s.bounds
    let rmax := bb.vertices.foldl (fun r v =>
      let l := Real.sqrt (v.x * v.x + v.y * v.y)
      if l > r then l else r) 0
    ⟨fun p =>
      let p2 := V2.polarToXY (V2.norm ⟨p.x, p.y⟩) (sawTooth (atan2 p.y p.x) theta)
      s.eval ⟨p2.x, p2.y, p.z⟩,
     ⟨⟨-rmax, -rmax, bb.lo.z⟩, ⟨rmax, rmax, bb.hi.z⟩⟩⟩

/-- /repo/sdf3.go:809-823 `Offset3D` and its `Evaluate`. -/
noncomputable def offset (s : SDF3) (d : ℝ) : SDF3 :=
  ⟨fun p => s.eval p - d, Box3.new s.bounds.center (V3.add s.bounds.size (V3.elem (2 * d)))⟩

open Classical in
/-- /repo/sdf3.go:838-853 `Shell3D` and its `Evaluate`. -/
noncomputable def shell (s : SDF3) (thickness : ℝ) : SDF3 :=
  if thickness ≤ 0 then emptyFrom s
  else ⟨fun p => |s.eval p| - 0.5 * thickness, s.bounds.enlarge ⟨thickness, thickness, thickness⟩⟩

end SDF3

end Sdf
