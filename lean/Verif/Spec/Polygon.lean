import Verif.Model.Vec
import Mathlib.Analysis.SpecialFunctions.Complex.Arg
import Mathlib.Algebra.BigOperators.Group.List.Basic

/-! Specification vocabulary for polygons, independent of how `Polygon` evaluates them. -/

namespace Sdf
namespace Polygon

/-- `q` lies on the closed segment from `a` to `b`. -/
def OnSegment (a b q : V2) : Prop := ∃ t : ℝ, 0 ≤ t ∧ t ≤ 1 ∧ q = V2.add a (V2.scale t (V2.sub b a))

/-- The sides of the polygon with corners `v`: each corner joined to the next, the last one to the first. -/
def sides (v : List V2) : List (V2 × V2) := v.zip (v.rotate 1)

/-- The outline of the polygon. -/
def Outline (v : List V2) (q : V2) : Prop := ∃ e ∈ sides v, OnSegment e.1 e.2 q

/-- A point of the plane as a complex number. -/
def toC (v : V2) : ℂ := ⟨v.x, v.y⟩

/-- The angle in `(-π, π]` under which `p` sees the side from `a` to `b`, counter-clockwise positive. -/
noncomputable def seenAngle (p a b : V2) : ℝ := Complex.arg ((toC b - toC p) / (toC a - toC p))

/-- `w` is the winding number of the outline about `p`: the total angle seen from `p` is `w` full turns. -/
def IsWinding (v : List V2) (p : V2) (w : ℤ) : Prop :=
  ((sides v).map fun e => seenAngle p e.1 e.2).sum = 2 * Real.pi * w

/-- A usable list of corners: at least three, no corner equal to the next, and the last one either equal to the first
or more than `1e-9` away from it along one of the axes. -/
def Proper (v : List V2) : Prop :=
  3 ≤ v.length ∧ (∀ e ∈ v.zip v.tail, e.1 ≠ e.2) ∧
    ∀ a b, v.head? = some a → v.getLast? = some b → a = b ∨ ¬ V2.EqualWithin a b (1 / 1000000000)

end Polygon
end Sdf
