import Verif.Model.PolygonBuilder

/-! Specification vocabulary for the polygon builder. -/

namespace Sdf
namespace Must2

/-- The absolute positions of a vertex list: a relative vertex is an offset from its predecessor's absolute position.
`prev` is the position before the first vertex. -/
def resolve : V2 → List PV → List PV
  | _, [] => []
  | prev, v :: vs =>
    let x := if v.relative then V2.add v.vertex prev else v.vertex
    { v with vertex := x, relative := false } :: resolve x vs

/-- Every relative vertex has an absolute vertex to refer to: the first vertex is absolute, or the polygon is closed and
its last vertex is. -/
def Builder.Resolvable (b : Builder) : Prop :=
  (∃ v, b.vlist.head? = some v ∧ v.relative = false) ∨
    (b.closed = true ∧ ∃ v, b.vlist.getLast? = some v ∧ v.relative = false)

/-- The position before the first vertex: that of the last one. -/
def Builder.start (b : Builder) : V2 := (b.vlist.getLast?.map PV.vertex).getD ⟨0, 0⟩

/-- Vertices to be smoothed or turned into arcs have at least one facet. -/
def PV.Valid (v : PV) : Prop := v.vtype = .normal ∨ 1 ≤ v.facets

/-- The positions of the vertices that are neither smoothed nor the end of an arc, in order. -/
def plainPositions (l : List PV) : List V2 := (l.filter fun v => v.vtype = .normal).map PV.vertex

/-- The point `p` turned counter-clockwise by the angle `a` about `c`. -/
noncomputable def turn (c : V2) (a : ℝ) (p : V2) : V2 :=
  ⟨c.x + (Real.cos a * (p.x - c.x) - Real.sin a * (p.y - c.y)), c.y + (Real.sin a * (p.x - c.x) + Real.cos a * (p.y - c.y))⟩

end Must2
end Sdf
