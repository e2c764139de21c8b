import Verif.Model.Polygon
import Verif.Model.Matrix
import Mathlib.Analysis.SpecialFunctions.Trigonometric.Inverse

/-!
The polygon builder: /repo/form2/must2/poly.go:114-442.

Simplifications: pointers returned by `Add` are modelled by functions on vertices; `math.Acos`, `math.Sqrt` and `r2.Unit`
have their real values also where the code gets NaN (theorems about positions exclude those cases).
-/

namespace Sdf
namespace Must2

/-- /repo/form2/must2/poly.go:132-139 `pvType`. -/
inductive PVType | normal | smooth | arc
  deriving DecidableEq

/-- /repo/form2/must2/poly.go:123-130 `polygonVertex`. -/
structure PV where
  relative : Bool
  vtype : PVType
  vertex : V2
  facets : ℤ
  radius : ℝ

/-- /repo/form2/must2/poly.go:384-387: the vertex made by `AddV2`, also `polygonVertex{vertex: …}` at lines 254 and 318. -/
def PV.plain (x : V2) : PV := ⟨false, .normal, x, 0, 0⟩
/-- /repo/form2/must2/poly.go:144-147 `Rel`. -/
def PV.rel (v : PV) : PV := { v with relative := true }
/-- /repo/form2/must2/poly.go:150-153 `Polar`. -/
noncomputable def PV.polar (v : PV) : PV := { v with vertex := V2.polarToXY v.vertex.x v.vertex.y }
open Classical in
/-- /repo/form2/must2/poly.go:156-163 `Smooth`. -/
noncomputable def PV.smooth (v : PV) (radius : ℝ) (facets : ℤ) : PV :=
  if radius ≠ 0 ∧ facets ≠ 0 then { v with radius := radius, facets := facets, vtype := .smooth } else v
/-- /repo/form2/must2/util.go:6 `sqrtHalf`. -/
noncomputable def sqrtHalf : ℝ := 7071067811865476 / 10000000000000000
open Classical in
/-- /repo/form2/must2/poly.go:166-176 `Chamfer`. -/
noncomputable def PV.chamfer (v : PV) (size : ℝ) : PV :=
  if size ≠ 0 then { v with radius := size * sqrtHalf, facets := 1, vtype := .smooth } else v
open Classical in
/-- /repo/form2/must2/poly.go:179-186 `Arc`. -/
noncomputable def PV.arc (v : PV) (radius : ℝ) (facets : ℤ) : PV :=
  if radius ≠ 0 ∧ facets ≠ 0 then { v with radius := radius, facets := facets, vtype := .arc } else v

/-- /repo/form2/must2/poly.go:116-121 `PolygonBuilder`.  `isNil` tells whether `vlist` is the nil slice. -/
structure Builder where
  closed : Bool
  reverse : Bool
  isNil : Bool
  vlist : List PV

/-- /repo/form2/must2/poly.go:379-381 `NewPolygon`. -/
def Builder.new : Builder := ⟨false, false, true, []⟩
/-- /repo/form2/must2/poly.go:384-390 `AddV2` followed by the calls on the returned vertex that give `v`. -/
def Builder.add (b : Builder) (v : PV) : Builder := { b with isNil := false, vlist := b.vlist ++ [v] }
/-- /repo/form2/must2/poly.go:364-366 `Close`. -/
def Builder.close (b : Builder) : Builder := { b with closed := true }
/-- /repo/form2/must2/poly.go:374-376 `Reverse`. -/
def Builder.rev (b : Builder) : Builder := { b with reverse := true }
/-- /repo/form2/must2/poly.go:405-407 `Drop`; `none` is the panic on an empty list. -/
def Builder.drop (b : Builder) : Option Builder :=
  if b.vlist = [] then none else some { b with vlist := b.vlist.dropLast }

/-- /repo/form2/must2/poly.go:189-197 `nextVertex`; `none` is nil. -/
def Builder.nextVertex (b : Builder) (i : ℕ) : Option PV :=
  if i + 1 = b.vlist.length then if b.closed then b.vlist[0]? else none else b.vlist[i + 1]?

/-- /repo/form2/must2/poly.go:200-208 `prevVertex`; `none` is nil. -/
def Builder.prevVertex (b : Builder) (i : ℕ) : Option PV :=
  if i = 0 then if b.closed then b.vlist[b.vlist.length - 1]? else none else b.vlist[i - 1]?

open Classical in
/-- /repo/form2/must2/util.go:14-19 `Sign`. -/
noncomputable def sign (f : ℝ) : ℝ := if f = 0 then 0 else if f < 0 then -1 else 1

/-- The points `c + rv, c + m rv, c + m² rv, …` of the loops at /repo/form2/must2/poly.go:253-256 and :317-320. -/
noncomputable def rotatePoints (m : M22) (c : V2) : ℕ → V2 → List PV
  | 0, _ => []
  | n + 1, rv => PV.plain (V2.add c rv) :: rotatePoints m c n (m.mulPosition rv)

/-- /repo/form2/must2/poly.go:226-256: the vertices inserted for an arc from `a` to `b`. -/
noncomputable def arcPoints (a b : V2) (vradius : ℝ) (facets : ℤ) : List PV :=
  let side := sign vradius
  let radius := |vradius|
  let ba := V2.unit (V2.sub b a)
  let n := V2.scale side ⟨ba.y, -ba.x⟩
  let mid := V2.scale 0.5 (V2.add a b)
  let dMid := V2.norm (V2.sub mid a)
  let dCenter := Real.sqrt ((radius * radius) - (dMid * dMid))
  let c := V2.add mid (V2.scale dCenter n)
  let ac := V2.unit (V2.sub a c)
  let bc := V2.unit (V2.sub b c)
  let dtheta := -side * Real.arccos (V2.dot ac bc) / facets
  let m := M22.rotate dtheta
  let rv := m.mulPosition (V2.sub a c)
  rotatePoints m c (facets - 1).toNat rv

/-- /repo/form2/must2/poly.go:213-260 `arcVertex`: the new state and the returned flag; `none` is a panic (index out of
range, or `make` with a negative length). -/
noncomputable def Builder.arcVertex (b : Builder) (i : ℕ) : Option (Builder × Bool) :=
  match b.vlist[i]? with
  | none => none
  | some v =>
    if v.vtype ≠ .arc then some (b, false)
    else
      let v' := { v with vtype := PVType.normal }
      let b := { b with vlist := b.vlist.set i v' }
      match b.prevVertex i with
      | none => some (b, false)
      | some pv =>
        if v.facets - 1 < 0 then none
        else
          some ({ b with vlist := b.vlist.take i ++ (arcPoints pv.vertex v.vertex v.radius v.facets ++ b.vlist.drop i) }, true)

open Classical in
/-- /repo/form2/must2/poly.go:292-320: the points replacing a smoothed vertex `v` between `vp` and `vn`; `none` when the
radius is too large. -/
noncomputable def smoothPoints (vp v vn : V2) (radius : ℝ) (facets : ℤ) : Option (List PV) :=
  let v0 := V2.unit (V2.sub vp v)
  let v1 := V2.unit (V2.sub vn v)
  let theta := Real.arccos (V2.dot v0 v1)
  let d1 := radius / Real.tan (theta / 2)
  if d1 > V2.norm (V2.sub vp v) ∨ d1 > V2.norm (V2.sub vn v) then none
  else
    let p0 := V2.add v (V2.scale d1 v0)
    let d2 := radius / Real.sin (theta / 2)
    let vc := V2.unit (V2.add v0 v1)
    let c := V2.add v (V2.scale d2 vc)
    let dtheta := sign (V2.cross v1 v0) * (Real.pi - theta) / facets
    let rm := M22.rotate dtheta
    let rv := V2.sub p0 c
    some (rotatePoints rm c (facets + 1).toNat rv)

/-- /repo/form2/must2/poly.go:278-324 `smoothVertex`: the new state and the returned flag; `none` is a panic. -/
noncomputable def Builder.smoothVertex (b : Builder) (i : ℕ) : Option (Builder × Bool) :=
  match b.vlist[i]? with
  | none => none
  | some v =>
    if v.vtype ≠ .smooth then some (b, false)
    else
      match b.prevVertex i, b.nextVertex i with
      | some vp, some vn =>
        match smoothPoints vp.vertex v.vertex vn.vertex v.radius v.facets with
        | none => some (b, false)
        | some points =>
          if v.facets + 1 < 0 then none
          else some ({ b with vlist := b.vlist.take i ++ (points ++ b.vlist.drop (i + 1)) }, true)
      | _, _ => some (b, false)

/-- The result of a computation that may panic or not come to an end. -/
inductive Outcome (α : Type) | ok (a : α) | panic | outOfFuel

/-- /repo/form2/must2/poly.go:267-271 and :331-335: one pass of `step` over the indices present at its start; the flag
tells whether any step returned true. -/
def pass (step : Builder → ℕ → Option (Builder × Bool)) : List ℕ → Builder → Option (Builder × Bool)
  | [], b => some (b, false)
  | i :: is, b =>
    match step b i with
    | none => none
    | some (b', r) =>
      match pass step is b' with
      | none => none
      | some (b'', r') => some (b'', r || r')

/-- /repo/form2/must2/poly.go:263-273 `createArcs` and :327-337 `smoothVertices`: passes until one changes nothing. -/
def passes (step : Builder → ℕ → Option (Builder × Bool)) : ℕ → Builder → Outcome Builder
  | 0, _ => .outOfFuel
  | fuel + 1, b =>
    match pass step (List.range b.vlist.length) b with
    | none => .panic
    | some (b', true) => passes step fuel b'
    | some (b', false) => .ok b'

/-- /repo/form2/must2/poly.go:340-353 `relToAbs` from index `i` on (`n` indices left); `none` is the nil dereference of a
first vertex without predecessor.  The flag is false when the error is returned. -/
def Builder.relToAbsFrom (b : Builder) : ℕ → ℕ → Option (Builder × Bool)
  | _, 0 => some (b, true)
  | i, n + 1 =>
    match b.vlist[i]? with
    | none => none
    | some v =>
      if v.relative then
        match b.prevVertex i with
        | none => none
        | some pv =>
          if pv.relative then some (b, false)
          else
            Builder.relToAbsFrom { b with vlist := b.vlist.set i { v with vertex := V2.add v.vertex pv.vertex, relative := false } }
              (i + 1) n
      else Builder.relToAbsFrom b (i + 1) n

/-- /repo/form2/must2/poly.go:340-353 `relToAbs`. -/
def Builder.relToAbs (b : Builder) : Option (Builder × Bool) := b.relToAbsFrom 0 b.vlist.length

/-- /repo/form2/must2/poly.go:355-359 `fixups`; the error of `relToAbs` is dropped. -/
noncomputable def Builder.fixups (fuel : ℕ) (b : Builder) : Outcome Builder :=
  match b.relToAbs with
  | none => .panic
  | some (b, _) =>
    match passes Builder.arcVertex fuel b with
    | .ok b => passes Builder.smoothVertex fuel b
    | r => r

/-- /repo/form2/must2/poly.go:410-427 `Vertices`: the returned vertices and the state of the builder afterwards. -/
noncomputable def Builder.vertices (fuel : ℕ) (b : Builder) : Outcome (List V2 × Builder) :=
  if b.isNil then .panic
  else
    match b.fixups fuel with
    | .ok b => .ok (if b.reverse then (b.vlist.map PV.vertex).reverse else b.vlist.map PV.vertex, b)
    | .panic => .panic
    | .outOfFuel => .outOfFuel

/-- /repo/form2/must2/poly.go:430-442 `Nagon`; `none` is the nil slice. -/
noncomputable def nagon (n : ℤ) (radius : ℝ) : Option (List V2) :=
  if n < 3 then none
  else some ((List.range n.toNat).map fun i => ((M22.rotate (2 * Real.pi / n)).mulPosition)^[i] ⟨radius, 0⟩)

end Must2
end Sdf
